import Verif.Lemmas.Exported
import Verif.Lemmas.Validate

/-!
# One object: its text, and what is imported from it
-/

namespace PyOGRe
open Spec

section
variable {K : Type} [DecidableEq K] [CommRing K]

omit [DecidableEq K] [CommRing K] in
theorem Spec.IsObj.nameOf {w : World K} {i : Id'} {o : Obj K} (h : IsObj w i o) : nameOf w i = .ok o.name := by
  unfold PyOGRe.nameOf
  rw [h.1]
  simp [h.2]

theorem get?_foldl_set {β γ δ : Type} [DecidableEq β] [DecidableEq γ] (n : γ) {d : Dict β δ} (hd : UniqueKeys d)
    (acc : Dict (β × γ) δ) (k : β) (m : γ) :
    Dict.get? (d.foldl (fun acc p => Dict.set acc (p.1, n) p.2) acc) (k, m) =
      if m = n then (d.get? k).or (acc.get? (k, m)) else acc.get? (k, m) := by
  induction d generalizing acc with
  | nil => simp [Dict.get?_nil]
  | cons p d ih =>
    unfold UniqueKeys at hd ih
    rw [List.map_cons, List.nodup_cons] at hd
    rw [List.foldl_cons, ih hd.2, Dict.get?_cons, Dict.get?_set]
    by_cases hm : m = n
    · subst hm
      rw [if_pos rfl, if_pos rfl]
      by_cases hk : p.1 = k
      · subst hk
        rw [Dict.get?_none_of_key hd.1]
        simp
      · rw [if_neg hk]
        rw [if_neg (fun e => hk (by cases e; rfl))]
    · rw [if_neg hm, if_neg hm]
      rw [if_neg (fun e => hm (by cases e; rfl))]

theorem keys_foldl_set {β γ δ : Type} [DecidableEq β] [DecidableEq γ] (n : γ) (d : Dict β δ)
    {acc : Dict (β × γ) δ} (h : UniqueKeys acc) : UniqueKeys (d.foldl (fun acc p => Dict.set acc (p.1, n) p.2) acc) := by
  induction d generalizing acc with
  | nil => exact h
  | cons p d ih => exact ih (Dict.keys_set h _ _)

theorem mem_foldl_set {β γ δ : Type} [DecidableEq β] [DecidableEq γ] (n : γ) (d : Dict β δ)
    {acc : Dict (β × γ) δ} {x : (β × γ) × δ}
    (h : x ∈ d.foldl (fun acc p => Dict.set acc (p.1, n) p.2) acc) : x ∈ acc ∨ ∃ r ∈ d, x = ((r.1, n), r.2) := by
  induction d generalizing acc with
  | nil => exact Or.inl h
  | cons p d ih =>
    rcases ih h with h | ⟨r, hr, rfl⟩
    · rcases Dict.mem_set_iff h with h | rfl
      · exact Or.inl h
      · exact Or.inr ⟨p, by simp, rfl⟩
    · exact Or.inr ⟨r, List.mem_cons_of_mem _ hr, rfl⟩

omit [DecidableEq K] [CommRing K] in
/-- The exported dictionary of the components. -/
theorem exportedComps_ok {β : Type} {w : World K} {co : Id'} {name : String} {ix : List Int} {a : β} :
    ∀ {comps : Dict Id' (Dict (List Int) β)} {acc : Dict (List Int × String) β},
    UniqueKeys comps → UniqueKeys acc →
    (∀ p ∈ comps, UniqueKeys p.2 ∧ ∃ c', IsObj w p.1 c' ∧ (p.1 = co → c'.name = name) ∧ (p.1 ≠ co → c'.name ≠ name)) →
    (comps.get? co = none ∧ acc.get? (ix, name) = some a ∨
      ∃ d, comps.get? co = some d ∧ d.get? ix = some a) →
    ∃ d', exportedComps w comps acc = .ok d' ∧ UniqueKeys d' ∧ d'.get? (ix, name) = some a ∧
      ∀ x ∈ d', x ∈ acc ∨ ∃ q ∈ comps, ∃ r ∈ q.2, ∃ c', IsObj w q.1 c' ∧ x = ((r.1, c'.name), r.2)
  | [], acc, _, hacc, _, h => by
    rcases h with ⟨-, h⟩ | ⟨d, h, -⟩
    · exact ⟨acc, rfl, hacc, h, fun x hx => Or.inl hx⟩
    · cases h
  | (i, d) :: comps, acc, hk, hacc, hall, h => by
    have hk' : i ∉ comps.map Prod.fst ∧ (comps.map Prod.fst).Nodup := by
      unfold UniqueKeys at hk
      rwa [List.map_cons, List.nodup_cons] at hk
    obtain ⟨hd, c', hc', hn1, hn2⟩ := hall (i, d) (by simp)
    have step : ∃ acc', exportedComps w ((i, d) :: comps) acc = exportedComps w comps acc' ∧ UniqueKeys acc' ∧
        acc'.get? (ix, name) = (if name = c'.name then (d.get? ix).or (acc.get? (ix, name)) else acc.get? (ix, name)) ∧
        ∀ x ∈ acc', x ∈ acc ∨ ∃ r ∈ d, x = ((r.1, c'.name), r.2) := by
      by_cases he : d.isEmpty
      · refine ⟨acc, by rw [exportedComps, if_pos he], hacc, ?_, fun x hx => Or.inl hx⟩
        have : d = [] := by simpa using he
        subst this
        simp [Dict.get?_nil]
      · refine ⟨_, by rw [exportedComps, if_neg he, hc'.nameOf, py_ok_bind], keys_foldl_set _ _ hacc,
          get?_foldl_set (d := d) _ hd _ _ _, fun x hx => mem_foldl_set _ _ hx⟩
    obtain ⟨acc', e, hkeys, hget, hmem⟩ := step
    have h' : Dict.get? comps co = none ∧ acc'.get? (ix, name) = some a ∨
        ∃ d, Dict.get? comps co = some d ∧ Dict.get? d ix = some a := by
      rw [Dict.get?_cons] at h
      by_cases hi : i = co
      · left
        rw [if_pos hi] at h
        rcases h with ⟨h, -⟩ | ⟨d', h, h2⟩
        · cases h
        · cases h
          refine ⟨Dict.get?_none_of_key (hi ▸ hk'.1), ?_⟩
          rw [hget, if_pos (hn1 hi).symm, h2]
          rfl
      · rw [if_neg hi] at h
        rw [if_neg (fun e => hn2 hi e.symm)] at hget
        rw [hget]
        exact h
    obtain ⟨d', g1, g2, g3, g4⟩ := exportedComps_ok (comps := comps) hk'.2 hkeys
      (fun p hp => hall p (List.mem_cons_of_mem _ hp)) h'
    refine ⟨d', by rw [e, g1], g2, g3, fun x hx => ?_⟩
    rcases g4 x hx with h | ⟨q, hq, r, hr, c'', h1, h2⟩
    · rcases hmem x h with h | ⟨r, hr, rfl⟩
      · exact Or.inl h
      · exact Or.inr ⟨(i, d), by simp, r, hr, c', hc', rfl⟩
    · exact Or.inr ⟨q, List.mem_cons_of_mem _ hq, r, hr, c'', h1, h2⟩

/-- The parts of the text of a tensor, with their values. -/
def tensorParts (P : Printer K) (o : Obj K) (coords metric : String) (d : Dict (List Int × String) (Bool × Arr K))
    (x : K) : List (String × List Char × Val K) :=
  [("Components", assocText (d.map fun p => entryText (configText p.1) (held (compsText P p.2.1 p.2.2))),
      .table (d.map fun p => configVal p.1) (d.map fun p => compsVal p.2.1 p.2.2)),
   ("DefaultCoords", quotedText coords, .str coords.toList),
   ("DefaultIndices", held (listText [',', ' '] (o.indices.map intText)), indicesVal o.indices),
   ("Role", quotedText (roleName o.kind), .str (roleName o.kind).toList),
   ("Symbol", held (P.symbol o.symbol), .num x),
   ("Metric", quotedText metric, .str metric.toList)]

/-- The association of some parts. -/
def partsText (l : List (String × List Char × Val K)) : List Char :=
  assocText (l.map fun x => entryText (quotedText x.1) x.2.1)

/-- The value of some parts. -/
def partsVal (l : List (String × List Char × Val K)) : Val K := strDict (l.map fun x => (x.1, x.2.2))

theorem says_parts {R : Reader K} {l : List (String × List Char × Val K)} (h : ∀ x ∈ l, Nameable x.1 ∧ Says R x.2.1 x.2.2)
    (hnd : (l.map Prod.fst).Nodup) : Says R (partsText l) (partsVal l) :=
  says_strDict (fun x hx => (h x hx).1) hnd (fun x hx => (h x hx).2)

/-- The entry with the version. -/
def versionPart : String × List Char × Val K := ("OGReVersion", versionText, .str "PyOGRe v1.0.0".toList)

theorem nameable_of_check {s : String} (h : (s.toList ≠ [] ∧ '"' ∉ s.toList ∧ s.toList.getLast? ≠ some '\'') ∧
    '\\' ∉ s.toList ∧ (∀ c ∈ s.toList, isSpace c = true → c = ' ') ∧ ¬ [' ', ' '] <:+: s.toList) : Nameable s := h

theorem nameable_key {s : String} (h : s ∈ ["Components", "DefaultCoords", "DefaultIndices", "Role", "Symbol", "Metric",
    "OGReVersion", "PyOGRe v1.0.0", "Jacobians", "Jacobian", "InverseJacobian", "ChristoffelJacobian",
    "CoordTransformations", "Options"]) : Nameable s := by
  refine nameable_of_check ?_
  revert s
  decide +kernel

theorem versionPart_ok (R : Reader K) : Nameable (versionPart (K := K)).1 ∧
    Says R (versionPart (K := K)).2.1 versionPart.2.2 :=
  ⟨nameable_key (s := "OGReVersion") (by decide), says_quoted R (nameable_key (s := "PyOGRe v1.0.0") (by decide))⟩

theorem nameable_role (k : Kind) : Nameable (roleName k) := by
  refine nameable_of_check ?_
  cases k <;> decide +kernel

theorem configVal_hashable (p : List Int × String) : (configVal p : Val K).hashable = false := by
  unfold configVal
  simp [Val.hashable]

omit [DecidableEq K] [CommRing K] in
theorem keys_map_snd {α β γ : Type} {d : Dict α β} (h : UniqueKeys d) (f : α × β → γ) :
    UniqueKeys (d.map fun p => (p.1, f p) : Dict α γ) := by
  unfold UniqueKeys at h ⊢
  rw [List.map_map]
  exact h

omit [DecidableEq K] [CommRing K] in
theorem get?_map_snd {α β γ : Type} [DecidableEq α] (d : Dict α β) (f : α → β → γ) (k : α) :
    Dict.get? (d.map fun p => (p.1, f p.1 p.2) : Dict α γ) k = (d.get? k).map (f k) := by
  induction d with
  | nil => rfl
  | cons p d ih =>
    rw [List.map_cons, Dict.get?_cons, Dict.get?_cons]
    split_ifs with h
    · subst h; rfl
    · exact ih

omit [DecidableEq K] [CommRing K] in
theorem marked_keys {o : Obj K} (h : UniqueKeys o.comps) : UniqueKeys o.marked :=
  keys_map_snd h _

theorem marked_default {P : Printer K} {I : Importer K} {w : World K} {o c : Obj K} {a : Arr K}
    (h : Exportable P I w o c a) : ∃ d, o.marked.get? o.coords = some d ∧ d.get? o.indices = some (true, a) := by
  obtain ⟨d, h1, h2⟩ := h.default
  refine ⟨d.map fun q => (q.1, o.isArray o.coords, q.2), ?_, ?_⟩
  · unfold Obj.marked
    rw [get?_map_snd o.comps (fun i d => d.map fun q => (q.1, o.isArray i, q.2)), h1]
    rfl
  · rw [get?_map_snd d (fun _ a => (o.isArray o.coords, a)), h2, isArray_head h.native]
    rfl

/-- The text of a tensor. -/
theorem tensor_text {P : Printer K} {I : Importer K} (h1 : I.atom ['1'] = .ok 1) {w : World K} {o c m : Obj K}
    {a : Arr K} (h : Exportable P I w o c a) (hk : o.kind ≠ .coordinates) (hm : IsObj w o.metric m)
    (hmn : Nameable m.name) :
    ∃ d x, UniqueKeys d ∧ d.get? (o.indices, c.name) = some (true, a) ∧ (∀ p ∈ d, ∀ i ∈ p.1.1, i = 1 ∨ i = -1) ∧
      I.nameOf x = some o.symbol ∧
      exportEntries P w o = .ok ((tensorParts P o c.name m.name d x).map fun y => entryText (quotedText y.1) y.2.1) ∧
      ∀ y ∈ tensorParts P o c.name m.name d x, Nameable y.1 ∧ Says I.toReader y.2.1 y.2.2 := by
  obtain ⟨d, g1, g2, g3, g4⟩ := exportedComps_ok (w := w) (co := o.coords) (name := c.name) (ix := o.indices) (a := (true, a))
    (comps := o.marked) (acc := []) (marked_keys h.keys) (by simp [UniqueKeys]) (by
      intro p hp
      obtain ⟨p, hp', rfl⟩ := List.mem_map.1 hp
      obtain ⟨h2, c', h3, h4, h5⟩ := h.others p hp'
      refine ⟨keys_map_snd h2 _, c', h3, fun e => ?_, h5⟩
      dsimp only at e
      rw [e] at h3
      have := h3.1
      rw [h.coords.1.1] at this
      cases this; rfl) (Or.inr (marked_default h))
  obtain ⟨hsym, x, hx, hxn⟩ := h.symbol
  have hgood : ∀ p ∈ d, (∀ i ∈ p.1.1, i = 1 ∨ i = -1) ∧ Nameable p.1.2 ∧ ReadsBack I P p.2.2 := by
    intro p hp
    rcases g4 p hp with h | ⟨q, hq, r, hr, c', hc', rfl⟩
    · cases h
    · obtain ⟨q, hq', rfl⟩ := List.mem_map.1 hq
      obtain ⟨r, hr', rfl⟩ := List.mem_map.1 hr
      obtain ⟨-, c'', k1, k2, -⟩ := h.others q hq'
      have : c'' = c' := by
        have := k1.1
        rw [hc'.1] at this
        cases this; rfl
      subst this
      exact ⟨(h.arrays q hq' r hr').1, k2, (h.arrays q hq' r hr').2⟩
  refine ⟨d, x, g2, g3, fun p hp => (hgood p hp).1, hxn, ?_, ?_⟩
  · unfold exportEntries exportComps
    simp only [if_neg hk, g1, py_ok_bind, h.coords.1.nameOf, hm.nameOf, if_neg hsym]
    rfl
  · have hc : Says I.toReader (assocText (d.map fun p => entryText (configText p.1) (held (compsText P p.2.1 p.2.2))))
        (.table (d.map fun p => configVal p.1) (d.map fun p => compsVal p.2.1 p.2.2)) := by
      have hne : d ≠ [] := by rintro rfl; cases g3
      obtain ⟨p, d', rfl⟩ := List.exists_cons_of_ne_nil hne
      have k1 : SaysAll I.toReader (((p :: d').map fun p => (configText p.1, held (compsText P p.2.1 p.2.2))).map Prod.fst)
          ((p :: d').map fun p => configVal p.1) := by
        rw [List.map_map]
        exact saysAll_map fun q hq => says_config h1 (hgood q hq).1 (hgood q hq).2.1
      have k2 : SaysAll I.toReader (((p :: d').map fun p => (configText p.1, held (compsText P p.2.1 p.2.2))).map Prod.snd)
          ((p :: d').map fun p => compsVal p.2.1 p.2.2) := by
        rw [List.map_map]
        exact saysAll_map fun q hq => (says_comps (hgood q hq).2.2).held
      have := says_table (x := configVal p.1) (ks := d'.map fun p => configVal p.1) k1 k2 (configVal_hashable _)
      rw [List.map_map] at this
      exact this
    intro y hy
    simp only [tensorParts, List.mem_cons, List.not_mem_nil, or_false] at hy
    rcases hy with rfl | rfl | rfl | rfl | rfl | rfl
    · exact ⟨nameable_key (s := "Components") (by decide), hc⟩
    · exact ⟨nameable_key (s := "DefaultCoords") (by decide), says_quoted _ h.coords.2.2⟩
    · exact ⟨nameable_key (s := "DefaultIndices") (by decide), (says_indices h1 (sp := [.white]) rfl gap_white h.indices).held⟩
    · exact ⟨nameable_key (s := "Role") (by decide), says_quoted _ (nameable_role _)⟩
    · exact ⟨nameable_key (s := "Symbol") (by decide), hx.says.held⟩
    · exact ⟨nameable_key (s := "Metric") (by decide), says_quoted _ hmn⟩

theorem roleKind_name (k : Kind) : roleKind (some (roleName k)) = .ok k := by cases k <;> rfl

theorem string?_str (s : String) : (Val.str s.toList : Val K).string? = some s := by
  simp [Val.string?]

/-- What is read from the parts of a tensor. -/
def tensorImport (o : Obj K) (a : Arr K) (coords : String) (metric : Option Ref) : Import K :=
  { kind := o.kind, name := .val o.name, indices := o.indices, comps := a, symbol := .val o.symbol,
    coords := some (.name (some coords)), metric := metric, trans := [] }

/-- The metric that is found when the text is read. -/
def metricRef (w : World K) (k : Kind) (m : String) : Option Ref :=
  if k = .metric then none else match (namedInstances w (some m)).getLast? with
    | some i => some (.obj i)
    | none => some (.name (some m))

theorem importOne_tensor {P : Printer K} {I : Importer K} (hne : (1 : K) ≠ -1) {w : World K} {o : Obj K}
    {co mn : String} {a : Arr K} {d : Dict (List Int × String) (Bool × Arr K)} {x : K} (hd : UniqueKeys d)
    (ha : d.get? (o.indices, co) = some (true, a)) (hi : ∀ p ∈ d, ∀ i ∈ p.1.1, i = 1 ∨ i = -1)
    (hix : ∀ i ∈ o.indices, i = 1 ∨ i = -1) (hr : Restores a) (hk : o.kind ≠ .coordinates)
    (hx : I.nameOf x = some o.symbol) {l : List (String × List Char × Val K)} (hl : l = [] ∨ l = [versionPart]) :
    importOne I w (.str o.name.toList) (partsVal (tensorParts P o co mn d x ++ l)) =
      .ok (tensorImport o a co (metricRef w o.kind mn)) := by
  have hc := findComps_dict (K := K) hne hd hi hix ha hr none
  have e1 : (partsVal (tensorParts P o co mn d x ++ l)).item "Role" = .ok (.str (roleName o.kind).toList) := by
    rcases hl with rfl | rfl <;> · unfold partsVal; rw [strDict_item]; rfl
  have e2 : (partsVal (tensorParts P o co mn d x ++ l)).item "DefaultCoords" = .ok (.str co.toList) := by
    rcases hl with rfl | rfl <;> · unfold partsVal; rw [strDict_item]; rfl
  have e3 : (partsVal (tensorParts P o co mn d x ++ l)).item "DefaultIndices" = .ok (indicesVal o.indices) := by
    rcases hl with rfl | rfl <;> · unfold partsVal; rw [strDict_item]; rfl
  have e4 : (partsVal (tensorParts P o co mn d x ++ l)).item "Components" =
      .ok (.table (d.map fun p => configVal p.1) (d.map fun p => compsVal p.2.1 p.2.2)) := by
    rcases hl with rfl | rfl <;> · unfold partsVal; rw [strDict_item]; rfl
  have e5 : (partsVal (tensorParts P o co mn d x ++ l)).item "Symbol" = .ok (.num x) := by
    rcases hl with rfl | rfl <;> · unfold partsVal; rw [strDict_item]; rfl
  have e6 : (partsVal (tensorParts P o co mn d x ++ l)).item "Metric" = .ok (.str mn.toList) := by
    rcases hl with rfl | rfl <;> · unfold partsVal; rw [strDict_item]; rfl
  have e7 : (partsVal (tensorParts P o co mn d x ++ l)).hasItem "Symbol" = true := by
    rcases hl with rfl | rfl <;> · unfold partsVal; rw [strDict_hasItem]; rfl
  have e8 : (partsVal (tensorParts P o co mn d x ++ l)).hasItem "CoordTransformations" = false := by
    rcases hl with rfl | rfl <;> · unfold partsVal; rw [strDict_hasItem]; rfl
  unfold importOne
  simp only [e1, e2, e3, e4, e5, e6, e7, e8, py_ok_bind, string?_str, roleKind_name, hc, indicesOf_val hne hix,
    if_true, Bool.false_eq_true, if_false, symbolOf, hx]
  unfold tensorImport metricRef
  by_cases hm : o.kind = .metric
  · simp only [hm, or_true, if_true, py_ok_bind]
    rfl
  · simp only [hk, hm, or_self, if_false, py_ok_bind]
    rfl

/-! ### Coordinate systems -/

omit [DecidableEq K] [CommRing K] in
theorem byName_mem {β γ : Type} {w : World K} {f : β → γ} : ∀ {d : Dict Id' β} {acc : Dict String γ},
    (∀ p ∈ d, ∃ c', IsObj w p.1 c') → UniqueKeys acc →
    ∃ d', byName w f d acc = .ok d' ∧ UniqueKeys d' ∧
      ∀ x ∈ d', x ∈ acc ∨ ∃ p ∈ d, ∃ c', IsObj w p.1 c' ∧ x = (c'.name, f p.2)
  | [], acc, _, h => ⟨acc, rfl, h, fun x hx => Or.inl hx⟩
  | (i, b) :: d, acc, hall, h => by
    obtain ⟨c', hc'⟩ := hall (i, b) (by simp)
    obtain ⟨d', h1, h2, h3⟩ := byName_mem (f := f) (d := d) (acc := acc.set c'.name (f b))
      (fun p hp => hall p (List.mem_cons_of_mem _ hp)) (Dict.keys_set h _ _)
    refine ⟨d', by rw [byName, hc'.nameOf, py_ok_bind, h1], h2, fun x hx => ?_⟩
    rcases h3 x hx with h | ⟨p, hp, c'', k1, k2⟩
    · rcases Dict.mem_set_iff h with h | rfl
      · exact Or.inl h
      · exact Or.inr ⟨(i, b), by simp, c', hc', rfl⟩
    · exact Or.inr ⟨p, List.mem_cons_of_mem _ hp, c'', k1, k2⟩

omit [DecidableEq K] [CommRing K] in
theorem Spec.IsObj.nameIn {w : World K} {i : Id'} {o : Obj K} (h : IsObj w i o) : nameIn w i = o.name := by
  unfold Spec.nameIn
  rw [h.1]; rfl

omit [DecidableEq K] [CommRing K] in
theorem byName_distinct {β γ : Type} {w : World K} {f : β → γ} : ∀ {d : Dict Id' β} {acc : Dict String γ},
    (∀ p ∈ d, ∃ c', IsObj w p.1 c') → (acc.map Prod.fst ++ d.map fun p => nameIn w p.1).Nodup →
    byName w f d acc = .ok (acc ++ d.map fun p => (nameIn w p.1, f p.2))
  | [], acc, _, h => by simp [byName]
  | (i, b) :: d, acc, hall, h => by
    obtain ⟨c', hc'⟩ := hall (i, b) (by simp)
    have hnew : acc.get? (nameIn w i) = none := Dict.get?_none_of_key (by
      rw [List.nodup_append] at h
      intro hm
      exact h.2.2 _ hm _ (by simp) rfl)
    rw [byName, hc'.nameOf, py_ok_bind, ← hc'.nameIn, Dict.set_new _ _ _ hnew, byName_distinct]
    · simp
    · exact fun p hp => hall p (List.mem_cons_of_mem _ hp)
    · simpa using h

theorem mapM_py {α β : Type} {g : α → Py β} {h : α → β} : ∀ {l : List α}, (∀ x ∈ l, g x = .ok (h x)) →
    l.mapM g = .ok (l.map h)
  | [], _ => rfl
  | a :: l, hl => by
    rw [List.mapM_cons, hl a (by simp), mapM_py fun x hx => hl x (List.mem_cons_of_mem _ hx)]
    rfl

/-- The value that a printed symbol is read as. -/
noncomputable def symVal (I : Importer K) (P : Printer K) (s : Sym) : K :=
  open Classical in if h : NamesBack I P s then h.choose else 0

theorem symVal_spec {I : Importer K} {P : Printer K} {s : Sym} (h : NamesBack I P s) :
    Expressed I.toReader (P.symbol s) (symVal I P s) ∧ I.nameOf (symVal I P s) = some s := by
  unfold symVal
  rw [dif_pos h]
  exact h.choose_spec

/-- The value of the text of some rules. -/
noncomputable def rulesVal (I : Importer K) (P : Printer K) (d : Dict Sym K) : Val K :=
  .list (d.map fun p => .eq (symVal I P p.1) p.2)

theorem says_rulesText {I : Importer K} {P : Printer K} {d : Dict Sym K}
    (h : ∀ p ∈ d, NamesBack I P p.1 ∧ Expressed I.toReader (P.code p.2) p.2) :
    Says I.toReader (rulesText P d) (rulesVal I P d) := by
  have h1 : SaysAll I.toReader ((d.map fun p => (P.symbol p.1, held (P.code p.2))).map Prod.fst)
      ((d.map fun p => symVal I P p.1).map Val.num) := by
    rw [List.map_map, List.map_map]
    exact saysAll_map fun p hp => (symVal_spec (h p hp).1).1.says
  have h2 : SaysAll I.toReader ((d.map fun p => (P.symbol p.1, held (P.code p.2))).map Prod.snd)
      ((d.map fun p => p.2).map Val.num) := by
    rw [List.map_map, List.map_map]
    exact saysAll_map fun p hp => (h p hp).2.says.held
  have h3 := says_rules h1 h2
  rw [List.map_map, List.zip_map', List.map_map] at h3
  exact h3

theorem rulesOf_val {I : Importer K} {P : Printer K} {d : Dict Sym K} (h : ∀ p ∈ d, NamesBack I P p.1) :
    rulesOf I (rulesVal I P d) = .ok (d.map some) := by
  unfold rulesVal rulesOf
  dsimp only
  rw [mapM_py (h := fun v => match v with
    | .eq a b => (I.nameOf a).map fun s => (s, b)
    | _ => none)]
  · rw [List.map_map]
    congr 1
    refine List.map_congr_left fun p hp => ?_
    simp [(symVal_spec (h p hp)).2]
  · intro v hv
    obtain ⟨p, hp, rfl⟩ := List.mem_map.1 hv
    simp [(symVal_spec (h p hp)).2]

/-- The value of a printed Jacobian. -/
def jacobiansVal (j : Jacobians K) : Val K :=
  strDict [("Jacobian", compsVal true j.J), ("InverseJacobian", compsVal true j.Jinv), ("ChristoffelJacobian", compsVal true j.JJ)]

theorem says_jacobians {I : Importer K} {P : Printer K} {j : Jacobians K}
    (h : ReadsBack I P j.J ∧ ReadsBack I P j.Jinv ∧ ReadsBack I P j.JJ) :
    Says I.toReader (jacobiansText P j) (jacobiansVal j) := by
  have := says_strDict (R := I.toReader) (l := [("Jacobian", j.J), ("InverseJacobian", j.Jinv), ("ChristoffelJacobian", j.JJ)])
    (k := Prod.fst) (f := fun x => held (compsText P true x.2)) (g := fun x => compsVal true x.2)
    (by
      intro x hx
      refine nameable_key ?_
      simp only [List.mem_cons, List.not_mem_nil, or_false] at hx
      rcases hx with rfl | rfl | rfl <;> simp) (by simp [List.nodup_cons]) (by
      intro x hx
      simp only [List.mem_cons, List.not_mem_nil, or_false] at hx
      rcases hx with rfl | rfl | rfl
      · exact (says_comps h.1).held
      · exact (says_comps h.2.1).held
      · exact (says_comps h.2.2).held)
  exact this

/-- The parts of the text of a coordinate system, with their values. -/
noncomputable def coordParts (P : Printer K) (I : Importer K) (w : World K) (o : Obj K)
    (jac : List (String × List Char × Val K)) : List (String × List Char × Val K) :=
  [("Components", assocText [entryText (configText ([1], o.name)) (held (listText [',', ' '] (o.syms.map P.symbol)))],
      .table [configVal ([1], o.name)] [.list (o.syms.map fun s => .num (symVal I P s))]),
   ("DefaultCoords", quotedText o.name, .str o.name.toList),
   ("DefaultIndices", held (listText [',', ' '] (o.indices.map intText)), indicesVal o.indices),
   ("Role", quotedText (roleName o.kind), .str (roleName o.kind).toList),
   ("Symbol", held (P.symbol o.symbol), .num (symVal I P o.symbol))] ++ jac ++
  [("CoordTransformations",
      assocText (o.trans.map fun p => entryText (quotedText (nameIn w p.1)) (rulesText P (rulesDict p.2))),
      strDict (o.trans.map fun p => (nameIn w p.1, rulesVal I P (rulesDict p.2))))]

/-- The text of a coordinate system. -/
theorem coord_text {P : Printer K} {I : Importer K} (h1 : I.atom ['1'] = .ok 1) {w : World K} {o : Obj K}
    (h : ExportableCoords P I w o) :
    ∃ jac, (jac = [] ∨ ∃ s v, jac = [("Jacobians", s, v)]) ∧
      exportEntries P w o = .ok ((coordParts P I w o jac).map fun y => entryText (quotedText y.1) y.2.1) ∧
      ∀ y ∈ coordParts P I w o jac, Nameable y.1 ∧ Says I.toReader y.2.1 y.2.2 := by
  obtain ⟨jac, j1, j2, j3⟩ := byName_mem (w := w) (f := jacobiansText P) (d := o.jac) (acc := [])
    (fun p hp => by obtain ⟨c', hc', -⟩ := h.jac p hp; exact ⟨c', hc'⟩) (by simp [UniqueKeys])
  have ht : byName w rulesDict o.trans [] = .ok (o.trans.map fun p => (nameIn w p.1, rulesDict p.2)) := by
    rw [byName_distinct (fun p hp => by obtain ⟨c', hc', -⟩ := h.trans p hp; exact ⟨c', hc'⟩)]
    · simp
    · have := h.targets
      rw [List.map_nil, List.nil_append]
      exact this
  have hjv : ∀ x ∈ jac, ∃ v, Nameable x.1 ∧ Says I.toReader x.2 v := by
    intro x hx
    rcases j3 x hx with h' | ⟨p, hp, c', k1, rfl⟩
    · cases h'
    · obtain ⟨c'', hc'', k2, k3⟩ := h.jac p hp
      have : c'' = c' := by
        have := hc''.1
        rw [k1.1] at this
        cases this; rfl
      subst this
      exact ⟨_, k2, says_jacobians k3⟩
  haveI : Nonempty (Val K) := ⟨.list []⟩
  choose! g hg using hjv
  refine ⟨if o.jac.isEmpty then [] else
    [("Jacobians", assocText (jac.map fun p => entryText (quotedText p.1) p.2), strDict (jac.map fun x => (x.1, g x)))],
    ?_, ?_, ?_⟩
  · split_ifs
    · exact Or.inl rfl
    · exact Or.inr ⟨_, _, rfl⟩
  · unfold exportEntries exportComps
    simp only [h.kind, if_true, j1, ht, py_ok_bind, if_neg h.symbol.1]
    unfold coordParts
    rw [List.map_append, List.map_append]
    simp only [h.kind, List.map_map]
    by_cases he : o.jac.isEmpty <;> simp only [he, if_true, Bool.false_eq_true, if_false] <;> rfl
  · intro y hy
    unfold coordParts at hy
    rw [List.append_assoc, List.mem_append, List.mem_append] at hy
    rcases hy with hy | hy | hy
    · simp only [List.mem_cons, List.not_mem_nil, or_false] at hy
      rcases hy with rfl | rfl | rfl | rfl | rfl
      · refine ⟨nameable_key (s := "Components") (by decide), ?_⟩
        have k1 : SaysAll I.toReader ([(configText ([1], o.name), held (listText [',', ' '] (o.syms.map P.symbol)))].map Prod.fst)
            [configVal ([1], o.name)] := .cons (says_config h1 (by simp) h.name) .nil
        have k2 : SaysAll I.toReader ([(configText ([1], o.name), held (listText [',', ' '] (o.syms.map P.symbol)))].map Prod.snd)
            [.list (o.syms.map fun s => .num (symVal I P s))] :=
          .cons (says_list (sp := [.white]) rfl gap_white
            (saysAll_map fun s hs => (symVal_spec (h.syms s hs)).1.says)).held .nil
        exact says_table k1 k2 (configVal_hashable _)
      · exact ⟨nameable_key (s := "DefaultCoords") (by decide), says_quoted _ h.name⟩
      · exact ⟨nameable_key (s := "DefaultIndices") (by decide),
          (says_indices h1 (sp := [.white]) rfl gap_white (by rw [h.indices]; simp)).held⟩
      · exact ⟨nameable_key (s := "Role") (by decide), says_quoted _ (nameable_role _)⟩
      · exact ⟨nameable_key (s := "Symbol") (by decide), (symVal_spec h.symbol.2).1.says.held⟩
    · split_ifs at hy
      · cases hy
      · rw [List.mem_singleton] at hy
        subst hy
        exact ⟨nameable_key (s := "Jacobians") (by decide),
          says_strDict (fun x hx => (hg x hx).1) j2 (fun x hx => (hg x hx).2)⟩
    · rw [List.mem_singleton] at hy
      subst hy
      refine ⟨nameable_key (s := "CoordTransformations") (by decide), says_strDict ?_ h.targets ?_⟩
      · intro p hp
        obtain ⟨c', hc', k, -⟩ := h.trans p hp
        rw [hc'.nameIn]; exact k
      · intro p hp
        obtain ⟨c', hc', -, k⟩ := h.trans p hp
        exact says_rulesText k

theorem arrayOf_list {α : Type} {l : List α} (hl : l ≠ []) (f : α → K) :
    arrayOf (.list (l.map fun s => Val.num (f s))) = .ok ⟨[l.length], l.map f⟩ := by
  have := arrayOf_arrVal [l.length] (l.map f) (by simp) (by
    intro d hd
    rw [List.mem_singleton] at hd
    subst hd
    exact List.length_pos_of_ne_nil hl)
  rw [← this]
  congr 1
  rw [arrVal]
  congr 1
  refine List.ext_getElem (by simp) ?_
  intro i h1 h2
  simp only [List.getElem_map, List.getElem_range, List.prod_nil, Nat.mul_one]
  have hi : i < l.length := by simpa using h1
  rw [List.drop_eq_getElem_cons (by simpa using hi)]
  simp only [List.getElem_map, List.take_succ_cons, List.take_zero]
  rfl

/-- What is read from the parts of a coordinate system. -/
noncomputable def coordImport (P : Printer K) (I : Importer K) (o : Obj K) (trans : List (Ref × Val K)) : Import K :=
  { kind := .coordinates, name := .val o.name, indices := [1], comps := ⟨[o.syms.length], o.syms.map (symVal I P)⟩,
    symbol := .val o.symbol, coords := none, metric := none, trans := trans }

theorem importOne_coords {P : Printer K} {I : Importer K} (hne : (1 : K) ≠ -1) {w w' : World K} {o : Obj K}
    (h : ExportableCoords P I w o) {jac : List (String × List Char × Val K)}
    (hj : jac = [] ∨ ∃ s v, jac = [("Jacobians", s, v)]) {l : List (String × List Char × Val K)}
    (hl : l = [] ∨ l = [versionPart]) :
    importOne I w' (.str o.name.toList) (partsVal (coordParts P I w o jac ++ l)) =
      .ok (coordImport P I o (transOf w' (o.trans.map fun p =>
        (.str (nameIn w p.1).toList, rulesVal I P (rulesDict p.2))))) := by
  have hsy : o.syms ≠ [] := by
    intro e
    have := h.big
    rw [e] at this
    simp at this
  have hk := h.kind
  have hc : findComps (indicesVal o.indices : Val K) (.str o.name.toList) [configVal ([1], o.name)]
      [.list (o.syms.map fun s => .num (symVal I P s))] none =
        .ok (some ⟨[o.syms.length], o.syms.map (symVal I P)⟩) := by
    rw [findComps_cons _ _ (configVal ([1], o.name)) _ _ _ _ (indicesVal [1]) (.str o.name.toList) rfl, same_str,
      same_indices hne (by simp) (by rw [h.indices]; simp), h.indices]
    have : readComps' (.list (o.syms.map fun s => Val.num (symVal I P s))) =
        .ok ⟨[o.syms.length], o.syms.map (symVal I P)⟩ := by
      unfold readComps'
      simp only [List.length_map]
      rw [if_pos (by have := h.big; omega), arrayOf_list hsy]
    simp only [decide_true, if_true, this]
    rfl
  have e : ∀ (key : String) (v : Val K), (match ([("Components", assocText [entryText (configText ([1], o.name)) (held (listText [',', ' '] (o.syms.map P.symbol)))],
      Val.table [configVal ([1], o.name)] [.list (o.syms.map fun s => .num (symVal I P s))]),
   ("DefaultCoords", quotedText o.name, .str o.name.toList),
   ("DefaultIndices", held (listText [',', ' '] (o.indices.map intText)), indicesVal o.indices),
   ("Role", quotedText (roleName o.kind), .str (roleName o.kind).toList),
   ("Symbol", held (P.symbol o.symbol), .num (symVal I P o.symbol))] : List (String × List Char × Val K)).find? fun p => p.1 == key with
    | some p => p.2.2 = v
    | none => False) → (partsVal (coordParts P I w o jac ++ l)).item key = .ok v := by
    intro key v hv
    unfold partsVal
    rw [strDict_item, List.find?_map]
    unfold coordParts
    rw [List.append_assoc, List.append_assoc, List.find?_append]
    revert hv
    have e0 : ((fun p : String × Val K => p.1 == key) ∘ fun x : String × List Char × Val K => (x.1, x.2.2)) =
      fun p => p.1 == key := rfl
    rw [e0]
    generalize List.find? (fun p : String × List Char × Val K => p.1 == key) [("Components", _), _, _, _, _] = r
    rcases r with _ | p
    · exact fun h => h.elim
    · intro h
      simp only [Option.some_or, Option.map_some]
      rw [h]
  have e1 := e "Role" (.str (roleName o.kind).toList) rfl
  have e2 := e "DefaultCoords" (.str o.name.toList) rfl
  have e3 := e "DefaultIndices" (indicesVal o.indices) rfl
  have e4 := e "Components" (.table [configVal ([1], o.name)] [.list (o.syms.map fun s => .num (symVal I P s))]) rfl
  have e5 := e "Symbol" (.num (symVal I P o.symbol)) rfl
  have e7 : (partsVal (coordParts P I w o jac ++ l)).hasItem "Symbol" = true := by
    unfold partsVal
    rw [strDict_hasItem]; unfold coordParts; simp
  have e8 : (partsVal (coordParts P I w o jac ++ l)).hasItem "CoordTransformations" = true := by
    unfold partsVal
    rw [strDict_hasItem]; unfold coordParts; simp
  have e9 : (partsVal (coordParts P I w o jac ++ l)).item "CoordTransformations" =
      .ok (strDict (o.trans.map fun p => (nameIn w p.1, rulesVal I P (rulesDict p.2)))) := by
    rcases hj with rfl | ⟨s, v, rfl⟩ <;> rcases hl with rfl | rfl <;> · unfold partsVal; rw [strDict_item]; rfl
  unfold importOne
  simp only [e1, e2, e3, e4, e5, e7, e8, e9, py_ok_bind, string?_str, roleKind_name, hc,
    indicesOf_val hne (l := o.indices) (by rw [h.indices]; simp),
    if_true, Bool.false_eq_true, if_false, symbolOf, (symVal_spec h.symbol.2).2, hk, true_or, strDict, List.map_map]
  unfold coordImport
  rw [h.indices]
  rfl

theorem transOf_registered {w : World K} {β : Type} {f : β → Val K} : ∀ (d : Dict Id' β),
    (∀ p ∈ d, registeredAs w (nameIn w p.1) = [p.1]) →
    transOf w (d.map fun p => (Val.str (nameIn w p.1).toList, f p.2)) = d.map fun p => (Ref.obj p.1, f p.2)
  | [], _ => rfl
  | p :: d, h => by
    rw [List.map_cons, transOf, string?_str, transOf_registered d fun q hq => h q (List.mem_cons_of_mem _ hq)]
    have : namedInstances w (some (nameIn w p.1)) = [p.1] := h p (by simp)
    rw [this]
    rfl

theorem foldl_set_new {α β γ : Type} [DecidableEq α] {f : β → γ} : ∀ {d : Dict α β} {acc : Dict α γ},
    (acc.map Prod.fst ++ d.map Prod.fst).Nodup →
    d.foldl (fun acc p => Dict.set acc p.1 (f p.2)) acc = acc ++ d.map fun p => (p.1, f p.2)
  | [], acc, _ => by simp
  | p :: d, acc, h => by
    have hnew : acc.get? p.1 = none := Dict.get?_none_of_key (by
      rw [List.nodup_append] at h
      intro hm
      exact h.2.2 _ hm _ (by simp) rfl)
    rw [List.foldl_cons, Dict.set_new _ _ _ hnew, foldl_set_new]
    · simp
    · simpa using h

/-- Creating a coordinate system from imported data. -/
theorem importCoordinates_ok {P : Printer K} {I : Importer K} {w w' : World K} {o : Obj K}
    (h : ExportableCoords P I w o) {tr : Dict Id' (List (Option (Sym × K)))} (hk : UniqueKeys tr)
    (ht : ∀ p ∈ tr, ∃ q ∈ o.trans, p.2 = q.2) {trans : List (Ref × Val K)} {x : Import K}
    (hx : x = coordImport P I o trans) :
    importCoordinates I x (tr.map fun p => (Ref.obj p.1, rulesVal I P (rulesDict p.2))) w' =
      (.ok w'.objs.length,
        { objs := w'.objs ++ [{ restoredCoords o with trans := tr.map fun p => (p.1, (rulesDict p.2).map some) }],
          instances := w'.instances ++ [w'.objs.length] }) := by
  subst hx
  have hs : symsOf I (o.syms.map (symVal I P)) = .ok o.syms := by
    unfold symsOf
    rw [mapM_py (h := fun x => (I.nameOf x).getD "")]
    · rw [List.map_map]
      congr 1
      conv_rhs => rw [← List.map_id o.syms]
      refine List.map_congr_left fun s hs => ?_
      simp [(symVal_spec (h.syms s hs)).2]
    · intro x hx
      obtain ⟨s, hs, rfl⟩ := List.mem_map.1 hx
      simp [(symVal_spec (h.syms s hs)).2]
  have hr : ((tr.map fun p => (Ref.obj p.1, rulesVal I P (rulesDict p.2))).mapM fun p => do
      let r ← rulesOf I p.2
      return (p.1, r) : Py (List (Ref × List (Option (Sym × K))))) =
      .ok (tr.map fun p => (Ref.obj p.1, (rulesDict p.2).map some)) := by
    rw [List.mapM_map]
    refine mapM_py ?_
    intro p hp
    obtain ⟨q, hq, e⟩ := ht p hp
    simp only [Function.comp_apply]
    rw [rulesOf_val]
    · rfl
    · obtain ⟨c', -, -, k⟩ := h.trans q hq
      rw [e]
      exact fun r hr => (k r hr).1
  have hv : validateCoordinates (.val o.name) (.val [o.syms.length]) (.tuple [1]) (.val o.symbol) true = .ok () := by
    simp [validateCoordinates, validateOGReObject, headDim, validateIndicesRank]
  unfold importCoordinates
  simp only [PyM.bind_apply, PyM.lift_apply, coordImport, hs]
  rw [hr]
  simp only [hv]
  unfold register restoredCoords
  have hf : ((tr.map fun p => (Ref.obj p.1, (rulesDict p.2).map some)).foldl
      (fun d p => match p.1 with | .obj i => Dict.set d i p.2 | _ => d) []) =
      tr.map fun p => (p.1, (rulesDict p.2).map some) := by
    rw [List.foldl_map]
    have := foldl_set_new (f := fun r : List (Option (Sym × K)) => (rulesDict r).map some) (d := tr) (acc := [])
      (by rw [List.map_nil, List.nil_append]; exact hk)
    rw [List.nil_append] at this
    exact this
  rw [← hf]
  rfl

end

end PyOGRe
