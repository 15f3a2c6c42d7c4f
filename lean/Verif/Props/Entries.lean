import Verif.Lemmas.Entries
import Verif.Props.Roles
import Verif.Props.Default

/-!
# What an import makes: C128

`Model/Export.lean` against `Spec/Entries.lean`.
-/

namespace PyOGRe
open Spec
variable {K : Type} [DecidableEq K] [CommRing K]

/-- What is read about one object. -/
structure ReadOff (I : Importer K) (w : World K) (key entry : Val K) (x : Import K) : Prop where
  role : ∃ r, (r, x.kind, defaultSymbol x.kind) ∈ roleTable ∧ Under entry "Role" (.str r.toList)
  name : ∀ s, x.name = .val s → key = .str s.toList
  indices : ∃ l, Under entry "DefaultIndices" (.list l) ∧
    x.indices = l.map fun v => match v with | .num x => indexOf x | _ => 0
  coords : x.kind ≠ .coordinates → ∃ c, Under entry "DefaultCoords" c ∧ x.coords = some (.name c.string?)
  none : x.coords = none ↔ x.kind = .coordinates
  comps : ComponentsIn entry x.comps
  silent : Silent entry "Symbol" → x.symbol = .val (defaultSymbol x.kind)
  symbol : ∀ v, Under entry "Symbol" v → x.symbol = symbolOf I v
  metric : x.kind ≠ .coordinates → x.kind ≠ .metric → ∀ m, x.metric = some (.obj m) →
    ∃ s, Under entry "Metric" (.str s.toList) ∧ LastCalled w s m
  named : x.kind ≠ .coordinates → x.kind ≠ .metric → w.instances = [] →
    ∃ m, Under entry "Metric" m ∧ x.metric = some (.name m.string?)
  rules : w.instances = [] → (∃ t, Under entry "CoordTransformations" (.dict t) ∧
    x.trans = t.map fun q => (Ref.name q.1.string?, q.2)) ∨ (Silent entry "CoordTransformations" ∧ x.trans = [])
  listed : (∃ t, Under entry "CoordTransformations" (.dict t) ∧ x.trans = transOf w t) ∨
    (Silent entry "CoordTransformations" ∧ x.trans = [])

theorem transOf_names {w : World K} (hw : w.instances = []) : ∀ t : List (Val K × Val K),
    transOf w t = t.map fun q => (Ref.name q.1.string?, q.2)
  | [] => rfl
  | (k, v) :: t => by
    have hnil : namedInstances w k.string? = [] := by
      unfold namedInstances
      rw [hw]
      cases k.string? <;> rfl
    rw [transOf, hnil, transOf_names hw t]
    rfl

theorem importOne_reads {I : Importer K} {w : World K} {key entry : Val K} {x : Import K}
    (h : importOne I w key entry = .ok x) : ReadOff I w key entry x := by
  unfold importOne at h
  obtain ⟨role, h1, hA⟩ := py_ok_of_bind h
  obtain ⟨kind, h2, hB⟩ := py_ok_of_bind hA
  obtain ⟨coords, h3, hC⟩ := py_ok_of_bind hB
  obtain ⟨indices, h4, hD⟩ := py_ok_of_bind hC
  obtain ⟨configs, h5, hE⟩ := py_ok_of_bind hD
  obtain ⟨⟨ks, vs⟩, h6, hF⟩ := py_ok_of_bind hE
  obtain ⟨found, h7, hG⟩ := py_ok_of_bind hF
  obtain ⟨comps, h8, hH⟩ := py_ok_of_bind hG
  obtain ⟨ix, h9, hI⟩ := py_ok_of_bind hH
  obtain ⟨symbol, h10, hJ⟩ := py_ok_of_bind hI
  obtain ⟨metric, h11, hK⟩ := py_ok_of_bind hJ
  obtain ⟨trans, h12, hL⟩ := py_ok_of_bind hK
  injection hL with hL
  clear h hA hB hC hD hE hF hG hH hI hJ hK
  subst hL
  obtain ⟨r, hr, ht⟩ := role_in_table h2
  refine ⟨⟨r, ht, ?_⟩, fun s hs => ?_, ?_, fun hk => ⟨coords, under_of_item h3, if_neg hk⟩, ⟨fun hn => ?_, fun hk => if_pos hk⟩, ?_, fun hs => ?_,
    fun v hv => ?_, fun hk hk' m hm => ?_, fun hk hk' hw => ?_, fun hw => ?_, ?_⟩
  · rw [← string?_eq hr]; exact under_of_item h1
  · dsimp only at hs
    split at hs
    · rename_i s' hs'
      injection hs with hs
      subst hs
      exact string?_eq hs'
    · cases hs
  · cases indices with
    | list l =>
      cases h9
      exact ⟨l, under_of_item h4, rfl⟩
    | _ => cases h9
  · by_contra hk
    dsimp only at hn hk
    rw [if_neg hk] at hn
    cases hn
  · cases configs with
    | table a b =>
      cases h6
      cases found with
      | none => cases h8
      | some a' =>
        cases h8
        rcases findComps_ok _ _ _ _ h7 with ⟨h13, -⟩ | ⟨j, rest, l, q1, q2, q3, q4⟩
        · cases h13
        · exact ⟨indices, coords, ks, vs, j, rest, l, under_of_item h4, under_of_item h3, under_of_item h5, q1, q2, q3, q4⟩
    | _ => cases h6
  · rw [silent_of_not hs, if_neg (by simp)] at h10
    injection h10 with h10
    exact h10.symm
  · obtain ⟨g1, g2⟩ := item_of_under hv
    rw [g2, if_pos rfl, g1, py_ok_bind] at h10
    injection h10 with h10
    exact h10.symm
  · dsimp only at hk hk' hm
    rw [if_neg (by simp [hk, hk'])] at h11
    obtain ⟨m', g1, g2⟩ := py_ok_of_bind h11
    injection g2 with g2
    split at g2
    · rename_i j hj
      rw [← g2] at hm
      cases hm
      obtain ⟨s, e1, e2⟩ := named_last hj
      exact ⟨s, by rw [← string?_eq e1]; exact under_of_item g1, e2⟩
    · rw [← g2] at hm
      cases hm
  · dsimp only at hk hk'
    rw [if_neg (by simp [hk, hk'])] at h11
    obtain ⟨m', g1, g2⟩ := py_ok_of_bind h11
    injection g2 with g2
    have hnil : namedInstances w m'.string? = [] := by
      unfold namedInstances
      rw [hw]
      cases m'.string? <;> rfl
    rw [hnil] at g2
    exact ⟨m', under_of_item g1, g2.symm⟩
  · dsimp only
    split_ifs at h12 with ht
    · obtain ⟨t, g1, g2⟩ := py_ok_of_bind h12
      cases t with
      | dict t =>
        injection g2 with g2
        exact Or.inl ⟨t, under_of_item g1, by rw [← g2, transOf_names hw]⟩
      | _ => cases g2
    · injection h12 with h12
      exact Or.inr ⟨fun v hv => ht (item_of_under hv).2, h12.symm⟩
  · dsimp only
    split_ifs at h12 with ht
    · obtain ⟨t, g1, g2⟩ := py_ok_of_bind h12
      cases t with
      | dict t =>
        injection g2 with g2
        exact Or.inl ⟨t, under_of_item g1, g2.symm⟩
      | _ => cases g2
    · injection h12 with h12
      exact Or.inr ⟨fun v hv => ht (item_of_under hv).2, h12.symm⟩

theorem importEach_first {I : Importer K} {w : World K} {x : Import K} {l : List (Import K)} :
    ∀ d : List (Val K × Val K), importEach I w d = .ok (x :: l) → ∃ key entry, FirstEntry d key entry ∧ ReadOff I w key entry x
  | [], h => by cases h
  | (key, entry) :: d, h => by
    unfold importEach at h
    split_ifs at h with hs
    · obtain ⟨k, e, ⟨before, after, h1, h2, h3⟩, h4⟩ := importEach_first d h
      refine ⟨k, e, ⟨(key, entry) :: before, after, by rw [h1]; rfl, fun p hp => ?_, h3⟩, h4⟩
      rcases List.mem_cons.1 hp with rfl | hp
      · exact same_text.1 hs
      · exact h2 p hp
    · obtain ⟨y, hy, hA⟩ := py_ok_of_bind h
      obtain ⟨l', -, hB⟩ := py_ok_of_bind hA
      cases hB
      exact ⟨key, entry, ⟨[], d, rfl, by simp, fun he => hs (same_text.2 he)⟩, importOne_reads hy⟩

/-- What is read about an object that the constructor accepts. -/
theorem described {I : Importer K} {w0 w : World K} {key entry : Val K} {x : Import K} (hx : ReadOff I w0 key entry x) {i : Id'}
    {o : Obj K} {M : String → Id' → Prop} (ha : o.alive = true) (hk : o.kind = x.kind) {nm sy : String} (hn : x.name = .val nm) (hn' : o.name = nm)
    (hs : x.symbol = .val sy) (hs' : o.symbol = sy) (hi : o.indices = x.indices) (hc : ∀ k ∈ x.indices, k = 1 ∨ k = -1)
    (h1 : o.kind ≠ .coordinates → ∃ s oc, Under entry "DefaultCoords" (.str s.toList) ∧ FirstCalled w s o.coords ∧
      w.objs[o.coords]? = some oc ∧ oc.kind = .coordinates)
    (h2 : o.kind ≠ .coordinates → o.kind ≠ .metric → ∃ s om, Under entry "Metric" (.str s.toList) ∧ M s o.metric ∧
      w.objs[o.metric]? = some om ∧ om.kind = .metric)
    (h3 : o.kind = .metric → o.metric = i)
    (h4 : o.kind ≠ .coordinates → ∃ d, o.comps.get? o.coords = some d ∧ d.get? o.indices = some x.comps)
    (h5 : o.kind = .coordinates → o.syms.map some = x.comps.data.map I.nameOf ∧ x.comps.shape = [x.comps.data.length]) :
    Described I.nameOf w M key entry i o := by
  subst hn' hs'
  refine ⟨ha, ?_, hx.name _ hn, fun v hv => ?_, ?_, h1, h2, h3, ⟨x.comps, hx.comps, h4, h5⟩⟩
  · obtain ⟨r, g1, g2⟩ := hx.role
    rw [← hk] at g1
    refine ⟨r, _, g1, g2, fun g3 => ?_⟩
    have := hx.silent g3
    rw [hs, ← hk] at this
    injection this
  · have := hx.symbol v hv
    rw [hs] at this
    cases v with
    | str s =>
      left
      injection this with this
      rw [this, String.toList_ofList]
    | num y =>
      right
      refine ⟨y, rfl, ?_⟩
      unfold symbolOf at this
      dsimp only at this
      split at this
      · rename_i s hs
        injection this with this
        rw [hs, this]
      · cases this
    | _ => cases this
  · obtain ⟨l, g1, g2⟩ := hx.indices
    rw [hi]
    suffices l = x.indices.map fun k : Int => (.num (Int.cast k) : Val K) by rw [← this]; exact g1
    rw [g2, List.map_map]
    rw [g2] at hc
    conv_lhs => rw [← List.map_id l]
    refine List.map_congr_left fun v hv => ?_
    have := hc _ (List.mem_map_of_mem hv)
    cases v with
    | num y =>
      simp only [Function.comp, indexOf] at this ⊢
      split_ifs at this ⊢ with e1 e2
      · simp [e1]
      · simp [e2]
      · simp at this
    | _ => simp at this

omit [DecidableEq K] in
theorem symsOf_data {I : Importer K} {l : List K} {syms : List Sym} (h : symsOf I l = .ok syms) : syms.map some = l.map I.nameOf := by
  induction l generalizing syms with
  | nil => cases h; rfl
  | cons x l ih =>
    unfold symsOf at h
    rw [List.mapM_cons] at h
    obtain ⟨s, h1, h2⟩ := py_ok_of_bind h
    obtain ⟨ss, h3, h4⟩ := py_ok_of_bind h2
    cases h4
    rw [List.map_cons, List.map_cons, ih h3]
    split at h1
    · rename_i s' hs
      cases h1
      rw [hs]
    · cases h1

/-- A metric that was created has a name and a symbol. -/
theorem newMetric_words {E : Engine K} {name symbol : Arg String} {a : Arr K} {c i : Id'} {ix : IndicesArg} {w w' : World K}
    (h : newMetric E name (.val a) c ix symbol w = (.ok i, w')) : (∃ s, name = .val s) ∧ ∃ s, symbol = .val s := by
  unfold newMetric at h
  obtain ⟨u, w1, h1, -⟩ := bind_ok h
  have hv : validateMetric E name (.val a) ix symbol = .ok u := congrArg Prod.fst h1
  unfold validateMetric at hv
  dsimp only at hv
  obtain ⟨u', h2, -⟩ := py_ok_of_bind hv
  obtain ⟨h3, h4, -⟩ := validateOGReObject_iff.1 h2
  exact ⟨h3, h4⟩

/-- Which constructor is called. -/
theorem importTensor_ok {E : Engine K} {x : Import K} {c i : Id'} {w w' : World K} (hc : x.coords = some (.obj c))
    (h : importTensor E x w = (.ok i, w')) :
    (x.kind = .metric ∧ newMetric E x.name (.val x.comps) c (.tuple x.indices) x.symbol w = (.ok i, w')) ∨
    (x.kind ≠ .metric ∧ ∃ m, x.metric = some (.obj m) ∧
      newTensor x.kind x.name (.val x.comps) m c (.tuple x.indices) x.symbol w = (.ok i, w')) := by
  obtain ⟨kind, name, ix, comps, symbol, coords, metric, trans⟩ := x
  dsimp only at hc ⊢
  subst hc
  unfold importTensor at h
  dsimp only at h
  split_ifs at h
  · cases h
  · rcases metric with _ | ⟨m⟩ | s <;> cases kind <;> first
      | exact Or.inl ⟨rfl, h⟩
      | exact Or.inr ⟨by decide, _, rfl, h⟩
      | cases h

/-- **C128**: whenever `import_from_string` returns, whatever the text and the session, it has added one object at the
end of the registry and changed nothing else, and the object is the one that the first entry of the text describes: its
class is that of the role, its name is the key, its symbol is the one in the text or else the default of its class, it
has the default indices and the components listed for them, its coordinates are the first registered object with the
name of the default coordinates, and its metric is the last registered object with the name of the metric. -/
theorem C128_imported (E : Engine K) (I : Importer K) (n : Nat) (s : List Char) (w w' : World K) (i : Id')
    (h : importFromString E I n s w = some (.ok i, w')) :
    ∃ d key entry o, parseStr I.toReader n s = some (.ok (.dict d)) ∧ FirstEntry d key entry ∧
      i = w.objs.length ∧ w'.objs = w.objs ++ [o] ∧ w'.instances = w.instances ++ [i] ∧
      Described I.nameOf w (LastCalled w) key entry i o := by
  unfold importFromString at h
  split at h
  · cases h
  · injection h with h; injection h with h _; cases h
  · rename_i v hv
    injection h with h
    unfold importFromVal at h
    rw [PyM.bind_apply] at h
    simp only [PyM.world] at h
    obtain ⟨l, w1, h1, h2⟩ := bind_ok h
    rw [PyM.lift_apply] at h1
    have hw1 : w = w1 := congrArg Prod.snd h1
    have hl : stringToTensors I w v = .ok l := congrArg Prod.fst h1
    subst hw1
    cases v with
    | dict d =>
      cases l with
      | nil => cases h2
      | cons x l =>
        obtain ⟨key, entry, hf, hx⟩ := importEach_first d hl
        refine ⟨d, key, entry, ?_⟩
        dsimp only at h2
        cases hxc : x.coords with
        | none =>
          rw [hxc] at h2
          dsimp only at h2
          have hk := hx.none.1 hxc
          unfold importCoordinates at h2
          obtain ⟨syms, w2, h3, h4⟩ := bind_ok h2
          obtain rfl : w = w2 := congrArg Prod.snd h3
          have hsy : symsOf I x.comps.data = .ok syms := congrArg Prod.fst h3
          obtain ⟨rules, w3, h5, h6⟩ := bind_ok h4
          obtain rfl : w = w3 := congrArg Prod.snd h5
          obtain ⟨u, w4, h7, h8⟩ := bind_ok h6
          obtain rfl : w = w4 := congrArg Prod.snd h7
          have hv' : validateCoordinates x.name (.val x.comps.shape) (.tuple x.indices) x.symbol true = .ok u := congrArg Prod.fst h7
          obtain ⟨⟨nm, hn⟩, ⟨sy, hs⟩, hc, hsh⟩ : (∃ nm, x.name = .val nm) ∧ (∃ sy, x.symbol = .val sy) ∧ x.indices = [1] ∧
              x.comps.shape.length = 1 := by
            unfold validateCoordinates at hv'
            obtain ⟨u', g1, g2⟩ := py_ok_of_bind hv'
            obtain ⟨g3, g4, -⟩ := validateOGReObject_iff.1 g1
            dsimp only at g2
            split_ifs at g2 with e1 e2 e3
            · exact ⟨g3, g4, not_not.1 e1, not_not.1 e3⟩
          have hd := symsOf_data hsy
          unfold register at h8
          injection h8 with e1 e2
          injection e1 with e1
          subst e1 e2
          refine ⟨_, hv, hf, rfl, rfl, rfl, described hx rfl hk.symm hn (by rw [hn]; rfl) hs (by rw [hs]; rfl) rfl
            (by rw [hc]; simp) (fun h => absurd rfl h) (fun h => absurd rfl h) (fun h => nomatch h) (fun h => absurd rfl h)
            fun _ => ⟨hd, ?_⟩⟩
          obtain ⟨_, _, _, _, _, _, _, -, -, -, -, -, -, ht⟩ := hx.comps
          match hm : x.comps.shape, hsh with
          | [m], _ =>
            rcases ht with ⟨-, ht⟩ | ⟨_, -, ht⟩ <;> rw [tabulates_row ht hm]
        | some r =>
          rw [hxc] at h2
          dsimp only at h2
          have hk : x.kind ≠ .coordinates := by
            intro hk
            rw [hx.none.2 hk] at hxc
            cases hxc
          obtain ⟨cv, hcv, hcr⟩ := hx.coords hk
          rw [hcr] at hxc
          cases hxc
          obtain ⟨c, w2, h3, h4⟩ := bind_ok h2
          obtain rfl : w = w2 := congrArg Prod.snd h3
          have hc : (namedInstances w cv.string?).head? = c := by
            have := congrArg Prod.fst h3
            injection this
          cases c with
          | none => cases h4
          | some c =>
            obtain ⟨s', e1, e2⟩ := named_first hc
            have hcs : Under entry "DefaultCoords" (.str s'.toList) := by rw [← string?_eq e1]; exact hcv
            dsimp only at h4
            rcases importTensor_ok rfl h4 with ⟨hk1, h5⟩ | ⟨hk1, m, hm, h5⟩
            · dsimp only at hk1 h5
              obtain ⟨⟨nm, hn⟩, sy, hs⟩ := newMetric_words h5
              rcases newMetric_cases E x.name x.comps c (.tuple x.indices) x.symbol w with ⟨e, g⟩ | ⟨oc, g1, g2, g3, -, -, g6, g⟩
              · rw [h5] at g; cases g
              · rcases g with ⟨e, -, g⟩ | ⟨b, -, g⟩
                · rw [h5] at g; cases g
                · rw [h5] at g
                  injection g with q1 q2
                  injection q1 with q1
                  subst q1 q2
                  refine ⟨_, hv, hf, rfl, rfl, rfl, described hx rfl hk1.symm hn (by rw [hn]; rfl) hs (by rw [hs]; rfl) rfl
                    (fun k hk => ?_) (fun _ => ⟨s', oc, hcs, e2, g1, g2⟩) (fun _ h => absurd rfl h) (fun _ => rfl)
                    (fun _ => ⟨_, by simp [freshObj, Dict.get?_cons]; rfl, by simp [freshObj, Dict.get?_cons]⟩) fun h => nomatch h⟩
                  rcases g6 with g6 | g6 <;> (change x.indices = _ at g6; rw [g6] at hk; simp at hk; simp [hk])
            · dsimp only at hk1 hm h5
              have hA : TensorArgsOK w x.name (.val x.comps) m c (.tuple x.indices) x.symbol := by
                by_contra hA
                obtain ⟨e, g⟩ := (newTensor_iff (kind := x.kind)).2 hA
                rw [h5] at g
                cases g
              obtain ⟨nm, hn⟩ := hA.name
              obtain ⟨sy, hs⟩ := hA.symbol
              rcases newTensor_cases x.kind x.name x.comps m c (.tuple x.indices) x.symbol w with ⟨e, g⟩ |
                ⟨oc, om, g1, g2, g3, g4, -, g6, g⟩
              · rw [h5] at g; cases g
              · rw [h5] at g
                injection g with q1 q2
                injection q1 with q1
                subst q1 q2
                exact ⟨_, hv, hf, rfl, rfl, rfl, described hx rfl rfl hn (by rw [hn]; rfl) hs (by rw [hs]; rfl) rfl
                  g6.2 (fun _ => ⟨s', oc, hcs, e2, g1, g2⟩) (fun g g' => by
                    obtain ⟨s1, r1, r2⟩ := hx.metric g g' _ hm
                    exact ⟨s1, om, r1, r2, g3, g4⟩) (fun h => absurd h hk1)
                  (fun _ => ⟨_, by simp [freshObj, Dict.get?_cons]; rfl, by simp [freshObj, Dict.get?_cons]⟩) fun h => absurd h hk⟩
    | _ => cases hl

/-! ### Examples -/

/-- A vector without a symbol, as another program might write it. -/
def Spec.plainText (role : String) : List Char :=
  ("<|\"W\"-><|\"Components\"-><|{{1},\"Plane\"}->{x,2}|>,\"DefaultCoords\"->\"Plane\",\"DefaultIndices\"->{1},\"Role\"->\"" ++
    role ++ "\",\"Metric\"->\"Flat\"|>|>").toList

/-- It gets the symbol of tensors or of geodesic equations, according to its role; with a symbol it keeps its own. -/
example : (importFromString codeEngine codeImporter 800 (plainText "Calculated") codeWorld).map
      (fun r => (r.2.objs[3]?).map fun o => (o.kind, o.name, o.symbol)) =
      some (some (.tensor, "W", "T")) ∧
    (importFromString codeEngine codeImporter 800 (plainText "GeodesicFromChristoffel") codeWorld).map
      (fun r => (r.2.objs[3]?).map fun o => (o.kind, o.name, o.symbol)) =
      some (some (.geodesicChristoffel, "W", "0")) ∧
    (importFromString codeEngine codeImporter 800 (roleText "Tensor") codeWorld).map
      (fun r => (r.2.objs[3]?).map fun o => (o.kind, o.name, o.symbol)) =
      some (some (.tensor, "V", "v")) :=
  ⟨by decide +kernel, by decide +kernel, by decide +kernel⟩

/-- The hypothesis of C128 is met. -/
example : ∃ d key entry o, parseStr codeImporter.toReader 800 (plainText "Calculated") = some (.ok (.dict d)) ∧
    FirstEntry d key entry ∧ Described codeImporter.nameOf codeWorld (LastCalled codeWorld) key entry 3 o := by
  have h : (importFromString codeEngine codeImporter 800 (plainText "Calculated") codeWorld).any (fun r => r.1 == .ok 3) = true := by
    decide +kernel
  obtain ⟨⟨r, w'⟩, h1, h2⟩ := some_of_any h
  simp only [beq_iff_eq] at h2
  subst h2
  obtain ⟨d, key, entry, o, g1, g2, -, -, -, g6⟩ := C128_imported _ _ _ _ _ _ _ h1
  exact ⟨d, key, entry, o, g1, g2, g6⟩

end PyOGRe
