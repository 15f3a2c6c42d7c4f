import Verif.Lemmas.Frame
import Verif.Lemmas.Represent

/-! Helper lemmas: which arguments the constructors accept. -/

namespace PyOGRe
open Spec
variable {K : Type} [CommRing K]

theorem shape_checks {s : List Nat} : (s.any fun d => d != headDim s) = false ↔
    ∃ n, ∀ d ∈ s, d = n := by
  constructor
  · intro h
    refine ⟨headDim s, fun d hd => ?_⟩
    by_contra hc
    have := List.any_eq_false.1 h d hd
    simp [hc] at this
  · rintro ⟨n, h⟩
    rw [List.any_eq_false]
    intro d hd
    cases s with
    | nil => simp at hd
    | cons x s =>
      have h1 := h x (by simp)
      have h2 := h d hd
      simp [headDim, h1, h2]

theorem config_checks {l : List Int} : (l.any fun i => !(i == 1 || i == -1)) = false ↔
    ∀ x ∈ l, x = 1 ∨ x = -1 := by
  rw [List.any_eq_false]
  constructor
  · intro h x hx
    have := h x hx
    simp only [Bool.not_eq_true, Bool.not_eq_false', Bool.or_eq_true, beq_iff_eq] at this
    exact this
  · intro h x hx
    have := h x hx
    simp only [Bool.not_eq_true, Bool.not_eq_false', Bool.or_eq_true, beq_iff_eq]
    exact this

theorem validateIndicesRank_iff {ix : IndicesArg} {r : Nat} :
    validateIndicesRank ix r = .ok () ↔ IndicesFit r ix := by
  unfold validateIndicesRank IndicesFit
  cases ix with
  | none => simp
  | other => simp
  | tuple l =>
    simp only [reduceCtorEq, IndicesArg.tuple.injEq, exists_eq_left', false_or]
    rw [Config, ← config_checks]
    cases hc : (l.any fun i => !(i == 1 || i == -1))
    · rw [if_neg (by decide)]
      by_cases hr : r = l.length
      · simp [hr]
      · simp [hr, Ne.symm hr]
    · simp

theorem validateOGReObject_iff {name symbol : Arg String} {shape : Arg (List Nat)} {ix : IndicesArg} :
    validateOGReObject name shape symbol ix = .ok () ↔ (∃ s, name = .val s) ∧ (∃ s, symbol = .val s) ∧
      ∃ s, shape = .val s ∧ (∃ n, ∀ d ∈ s, d = n) ∧ IndicesFit s.length ix := by
  unfold validateOGReObject
  cases name with
  | other => simp
  | val nm =>
    cases symbol with
    | other => simp
    | val sy =>
      cases shape with
      | other => simp
      | val s =>
        simp only [Arg.val.injEq, exists_eq', true_and, exists_eq_left']
        rw [← shape_checks]
        cases hc : (s.any fun d => d != headDim s)
        · rw [if_neg (by decide), ← validateIndicesRank_iff]
          cases ix <;> simp [validateIndicesRank]
        · simp

theorem validateBaseTensor_iff {name symbol : Arg String} {shape : Arg (List Nat)} {ix : IndicesArg} {n : Nat} :
    validateBaseTensor name shape n ix symbol = .ok () ↔ (∃ s, name = .val s) ∧ (∃ s, symbol = .val s) ∧
      ∃ s, shape = .val s ∧ (∀ d ∈ s, d = n) ∧ IndicesFit s.length ix := by
  unfold validateBaseTensor
  cases hv : validateOGReObject name shape symbol ix with
  | error e =>
    rw [py_error_bind]
    constructor
    · intro h; cases h
    rintro ⟨h1, h2, s, h3, h4, h5⟩
    have := validateOGReObject_iff.2 ⟨h1, h2, s, h3, ⟨n, h4⟩, h5⟩
    rw [hv] at this; cases this
  | ok u =>
    obtain ⟨h1, h2, s, h3, h4, h5⟩ := validateOGReObject_iff.1 hv
    subst h3
    rw [py_ok_bind]
    simp only [h1, h2, true_and, Arg.val.injEq, exists_eq_left', h5, and_true]
    cases hc : (s.any fun d => d != n)
    · rw [if_neg (by decide)]
      simp only [py_pure, true_iff]
      intro d hd
      have := List.any_eq_false.1 hc d hd
      simpa using this
    · simp only [if_true, py_throw, reduceCtorEq, false_iff]
      intro h
      obtain ⟨d, hd, hd'⟩ := List.any_eq_true.1 hc
      simp [h d hd] at hd'

/-- The part of the constructors common to tensors, exactly. -/
theorem newBaseTensor_eval {kind : Kind} {name : Arg String} {comps : Arg (Arr K)} {m : Option Id'} {c : Id'}
    {ix : IndicesArg} {symbol : Arg String} {w : World K} :
    ((∃ e, newBaseTensor kind name comps m c ix symbol w = (.error e, w)) ∧
      ¬ ((∃ s, name = .val s) ∧ (∃ s, symbol = .val s) ∧ ∃ oc a, w.objs[c]? = some oc ∧
        oc.kind = .coordinates ∧ oc.alive = true ∧ comps = .val a ∧ (∀ d ∈ a.shape, d = oc.syms.length) ∧
        IndicesFit a.shape.length ix)) ∨
    ((∃ i w', newBaseTensor kind name comps m c ix symbol w = (.ok i, w')) ∧
      ((∃ s, name = .val s) ∧ (∃ s, symbol = .val s) ∧ ∃ oc a, w.objs[c]? = some oc ∧
        oc.kind = .coordinates ∧ oc.alive = true ∧ comps = .val a ∧ (∀ d ∈ a.shape, d = oc.syms.length) ∧
        IndicesFit a.shape.length ix)) := by
  unfold newBaseTensor
  simp only [PyM.bind_apply, isCoordinates_apply]
  cases hc : w.objs[c]? with
  | none => left; exact ⟨⟨.typeError, by simp⟩, by simp⟩
  | some oc =>
    by_cases hk : oc.kind = .coordinates
    · simp only [Option.any_some, hk, beq_self_eq_true, Bool.not_true, Bool.false_eq_true, if_false,
        PyM.bind_apply]
      rcases getObj_cases c w with ⟨o, h1, h2, h3⟩ | h
      · rw [hc] at h1; cases h1
        rw [h3]
        dsimp only
        rw [PyM.lift_apply]
        cases hv : validateBaseTensor name (argShape comps) oc.syms.length ix symbol with
        | error e =>
          left
          refine ⟨⟨e, ?_⟩, ?_⟩
          · rfl
          · rintro ⟨v1, v2, oc', a, v3, v4, v5, rfl, v6, v7⟩
            cases v3
            have := validateBaseTensor_iff.2 ⟨v1, v2, a.shape, rfl, v6, v7⟩
            rw [show Arg.val a.shape = argShape (.val a) from rfl, hv] at this
            cases this
        | ok u =>
          right
          constructor
          · exact ⟨_, _, rfl⟩
          · obtain ⟨v1, v2, s, v3, v4, v5⟩ := validateBaseTensor_iff.1 hv
            refine ⟨v1, v2, oc, ?_⟩
            cases comps with
            | other => cases v3
            | val a => cases v3; exact ⟨a, rfl, hk, h2, rfl, v4, v5⟩
      · rw [h]; left
        refine ⟨⟨_, rfl⟩, ?_⟩
        rintro ⟨-, -, oc', a, v3, -, v5, -⟩
        cases v3
        rw [getObj_ok hc v5] at h; cases h
    · left
      refine ⟨⟨.typeError, by simp [hk]⟩, ?_⟩
      rintro ⟨-, -, oc', a, v3, v4, -⟩
      cases v3
      exact hk v4

theorem newTensor_iff {kind : Kind} {name : Arg String} {comps : Arg (Arr K)} {m c : Id'}
    {ix : IndicesArg} {symbol : Arg String} {w : World K} :
    (TensorArgsOK w name comps m c ix symbol → ∃ t w', newTensor kind name comps m c ix symbol w = (.ok t, w')) ∧
    (¬ TensorArgsOK w name comps m c ix symbol →
      ∃ e, newTensor kind name comps m c ix symbol w = (.error e, w)) := by
  have hN : newTensor kind name comps m c ix symbol w =
      if (w.objs[m]?).any (fun o => o.kind == .metric) = true then
        newBaseTensor kind name comps (some m) c ix symbol w else (.error .typeError, w) := by
    unfold newTensor
    simp only [PyM.bind_apply, isMetric_apply]
    cases (w.objs[m]?).any (fun o => o.kind == .metric) <;> rfl
  have hM : (w.objs[m]?).any (fun o => o.kind == .metric) = true ↔
      ∃ o, w.objs[m]? = some o ∧ o.kind = .metric := by
    cases w.objs[m]? <;> simp
  rw [hN]
  by_cases hm : (w.objs[m]?).any (fun o => o.kind == .metric) = true
  · rw [if_pos hm]
    rcases newBaseTensor_eval (kind := kind) (name := name) (comps := comps) (m := some m) (c := c) (ix := ix)
      (symbol := symbol) (w := w) with ⟨h1, h2⟩ | ⟨h1, h2⟩
    · exact ⟨fun h => absurd ⟨h.name, h.symbol, h.fits⟩ h2, fun _ => h1⟩
    · exact ⟨fun _ => h1, fun h => absurd ⟨h2.1, h2.2.1, hM.1 hm, h2.2.2⟩ h⟩
  · rw [if_neg hm]
    exact ⟨fun h => absurd (hM.2 h.metric) hm, fun _ => ⟨_, rfl⟩⟩

theorem isSymmetric_entries [DecidableEq K] {a : Arr K} {n : Nat} (h : a.shape = [n, n]) :
    isSymmetric a = true ↔ ∀ i j, i < n → j < n → entry a i j = entry a j i := by
  unfold isSymmetric
  rw [h]
  simp only [headDim, List.all_eq_true, List.mem_range, beq_iff_eq, entry]
  exact ⟨fun h i j hi hj => h i hi j hj, fun h i hi j hj => h i j hi hj⟩

theorem validateMetric_pass [DecidableEq K] {E : Engine K} {name : Arg String} {a : Arr K} {ix : IndicesArg}
    {symbol : Arg String} {n : Nat} (h1 : ∃ s, name = .val s) (h2 : ∃ s, symbol = .val s)
    (h3 : ix = .tuple [-1, -1] ∨ ix = .tuple [1, 1]) (h4 : a.shape = [n, n]) (h5 : isSymmetric a = true)
    (h6 : E.det a ≠ 0) : validateMetric E name (.val a) ix symbol = .ok () := by
  have hv : validateOGReObject name (.val a.shape) symbol ix = .ok () := by
    refine validateOGReObject_iff.2 ⟨h1, h2, a.shape, rfl, ⟨n, by simp [h4]⟩, ?_⟩
    rw [h4]
    rcases h3 with rfl | rfl
    · exact Or.inr ⟨_, rfl, rfl, by simp⟩
    · exact Or.inr ⟨_, rfl, rfl, by simp⟩
  unfold validateMetric
  dsimp only
  rw [hv, py_ok_bind, if_neg (by simp [h4]), if_neg (by simp [h5, h6])]
  rcases h3 with rfl | rfl
  · rw [if_neg (by decide)]; rfl
  · rw [if_neg (by decide)]; rfl

theorem newMetric_other [DecidableEq K] {E : Engine K} {name : Arg String} {c : Id'} {ix : IndicesArg}
    {symbol : Arg String} {w : World K} :
    newMetric E name .other c ix symbol w = (.error .typeError, w) := by
  unfold newMetric
  rw [PyM.bind_apply, PyM.lift_apply]
  rfl

/-- With well-formed arguments, and if the components can be inverted, no exception is raised. -/
theorem newMetric_accepts [DecidableEq K] {E : Engine K} {name : Arg String} {a b : Arr K} {c : Id'}
    {ix : IndicesArg} {symbol : Arg String} {w : World K} (hA : MetricArgsOK E w name (.val a) c ix symbol)
    (hb : E.inv a = .ok b) : ¬ ∃ e w', newMetric E name (.val a) c ix symbol w = (.error e, w') := by
  obtain ⟨h1, h2, h3, oc, a', h4, h5, h6, h0, h7, h8, h9⟩ := hA
  cases h0
  have hv := validateMetric_pass (E := E) h1 h2 h3 h7 ((isSymmetric_entries h7).2 h8) h9
  have hfit : IndicesFit a.shape.length ix := by
    rw [h7]
    rcases h3 with rfl | rfl <;> exact Or.inr ⟨_, rfl, rfl, by simp⟩
  rintro ⟨e, w', he⟩
  rcases newMetric_cases E name a c ix symbol w with ⟨e', h⟩ | ⟨oc', q1, q2, q3, q4, q5, q6, q7⟩
  · have := newBaseTensor_eval (kind := .metric) (name := name) (comps := .val a) (m := none) (c := c)
      (ix := ix) (symbol := symbol) (w := w)
    rcases this with ⟨-, hno⟩ | ⟨⟨i, w'', hi⟩, -⟩
    · exact hno ⟨h1, h2, oc, a, h4, h5, h6, rfl, by simp [h7], hfit⟩
    · -- the call got past validation and creation, so the registry has grown
      rcases newBaseTensor_cases .metric name a none c ix symbol w with ⟨e'', h'⟩ | ⟨oc'', -, -, -, -, p5⟩
      · rw [hi] at h'; cases h'
      · rw [hi] at p5
        have hI : w''.instances = w.instances ++ [w.objs.length] := by cases p5; rfl
        have hfr : ∀ {α} (f : PyM K α), Steady f → Frame w'' (f w'').2 := fun f hf => hf w''
        have : Frame w'' w := by
          unfold newMetric at h
          rw [PyM.bind_apply, PyM.lift_apply, hv] at h
          dsimp only at h
          rw [PyM.bind_apply, hi] at h
          dsimp only at h
          refine (congrArg (fun r => Frame w'' r.2) h).mp ?_
          refine (Steady.bind (Steady.getObj _) fun _ => Steady.bind (Steady.readComps _ _ _) fun _ =>
            Steady.bind (Steady.writeComps _ _ _ _) fun _ => Steady.bind (Steady.readComps _ _ _) fun _ =>
            Steady.bind (Steady.writeComps _ _ _ _) fun _ => ?_) w''
          cases ix with
          | tuple l => exact Steady.bind (Steady.readComps _ _ _) fun _ => Steady.bind (Steady.lift _) fun _ =>
              Steady.bind (Steady.writeComps _ _ _ _) fun _ => Steady.pure _
          | none => exact Steady.raise _
          | other => exact Steady.raise _
        have := this.2
        rw [hI] at this
        have := congrArg List.length this
        simp at this
  · rcases q7 with ⟨e', q7 | q7, -⟩ | ⟨b', -, q7⟩
    · rcases h3 with rfl | rfl <;> cases q7
    · rw [hb] at q7; cases q7
    · rw [he] at q7; cases q7

/-- Without configuration the constructor gets as far as creating the object. -/
theorem newMetric_none_registers [DecidableEq K] (E : Engine K) (nm sy : String) (a : Arr K)
    (c : Id') (w : World K) (oc : Obj K) (h1 : w.objs[c]? = some oc) (h2 : oc.kind = .coordinates)
    (h3 : oc.alive = true) (h4 : a.shape = [oc.syms.length, oc.syms.length])
    (h5 : isSymmetric a = true) (h6 : E.det a ≠ 0) :
    ∃ e w', newMetric E (.val nm) (.val a) c .none (.val sy) w = (.error e, w') ∧
      w'.instances = w.instances ++ [w.objs.length] ∧ ∃ o, w'.objs[w.objs.length]? = some o ∧
        o.kind = .metric ∧ o.alive = true := by
  have hv : validateMetric E (.val nm) (.val a) .none (.val sy) = .ok () := by
    have hv : validateOGReObject (.val nm) (.val a.shape) (.val sy) .none = .ok () :=
      validateOGReObject_iff.2 ⟨⟨_, rfl⟩, ⟨_, rfl⟩, a.shape, rfl, ⟨oc.syms.length, by simp [h4]⟩, Or.inl rfl⟩
    unfold validateMetric
    dsimp only
    rw [hv, py_ok_bind, if_neg (by simp [h4]), if_neg (by simp [h5, h6])]
    rfl
  rcases newMetric_cases E (.val nm) a c .none (.val sy) w with ⟨e, h⟩ | ⟨oc', -, -, -, -, -, -, q⟩
  · exfalso
    rcases newBaseTensor_eval (kind := .metric) (name := .val nm) (comps := .val a) (m := none) (c := c)
        (ix := .none) (symbol := .val sy) (w := w) with ⟨-, hno⟩ | ⟨⟨i, w', hi⟩, -⟩
    · exact hno ⟨⟨_, rfl⟩, ⟨_, rfl⟩, oc, a, h1, h2, h3, rfl, by simp [h4], Or.inl rfl⟩
    · rcases newBaseTensor_cases .metric (.val nm) a none c .none (.val sy) w with ⟨e'', h'⟩ | ⟨oc'', -, -, -, -, p⟩
      · rw [hi] at h'; cases h'
      · rw [hi] at p
        have hI : w'.instances = w.instances ++ [w.objs.length] := by cases p; rfl
        have hF : Frame w' w := by
          unfold newMetric at h
          rw [PyM.bind_apply, PyM.lift_apply, hv] at h
          dsimp only at h
          rw [PyM.bind_apply, hi] at h
          dsimp only at h
          refine (congrArg (fun r => Frame w' r.2) h).mp ?_
          exact (Steady.bind (Steady.getObj _) fun _ => Steady.bind (Steady.readComps _ _ _) fun _ =>
            Steady.bind (Steady.writeComps _ _ _ _) fun _ => Steady.bind (Steady.readComps _ _ _) fun _ =>
            Steady.bind (Steady.writeComps _ _ _ _) fun _ => Steady.raise _) w'
        have := hF.2
        rw [hI] at this
        have := congrArg List.length this
        simp at this
  · rcases q with ⟨e, -, q⟩ | ⟨b, -, q⟩
    · exact ⟨e, _, q, rfl, _, getElem?_append_length _ _, rfl, rfl⟩
    · exfalso
      unfold newMetric at q
      obtain ⟨_, _, -, k1⟩ := bind_ok q
      obtain ⟨_, _, -, k2⟩ := bind_ok k1
      obtain ⟨_, _, -, k3⟩ := bind_ok k2
      obtain ⟨_, _, -, k4⟩ := bind_ok k3
      obtain ⟨_, _, -, k5⟩ := bind_ok k4
      obtain ⟨_, _, -, k6⟩ := bind_ok k5
      obtain ⟨_, _, -, k7⟩ := bind_ok k6
      cases k7

end PyOGRe

namespace PyOGRe
open Spec
variable {K : Type} [CommRing K]

theorem mown_requests {E : Engine K} {m c : Id'} {f : Id' × List Int} {d : Dict (List Int) (Arr K)}
    (hist : List (Id' × Option Id' × Option (List Int))) : ∀ {w : World K}, MOwn m c f d w →
    MOwn m c f d (requests E hist w) := by
  induction hist with
  | nil => exact fun h => h
  | cons q rest ih =>
    intro w h
    obtain ⟨i, c', ix⟩ := q
    exact ih (getComponents_mown i c' ix w h trivial).1

/-- Asking a metric for a stored representation. -/
theorem getComponents_mown_ok {E : Engine K} {m c : Id'} {f : Id' × List Int} {d : Dict (List Int) (Arr K)}
    {w : World K} (h : MOwn m c f d w) {ix : List Int} {a : Arr K} (hv : validateIndices ix f.2 = .ok ())
    (ha : d.get? ix = some a) (c' : Option Id') (hc : c'.getD f.1 = c) :
    getComponents E m c' (some ix) w = (.ok a, w) := by
  obtain ⟨om, h1, h2, h3, h4, h5⟩ := h.metric
  have e : getComponents E m c' (some ix) w = getRepresentation E m c ix w := by
    unfold getComponents
    rw [PyM.bind_apply, getObj_ok h1 h2]
    dsimp only
    rw [show om.coords = f.1 from congrArg Prod.fst h4, hc]
    rfl
  rw [e, getRepresentation_mown h ix, hv]
  dsimp only
  rw [ha]

/-- The state after a metric was declared. -/
theorem mown_new [DecidableEq K] {E : Engine K} {w w' : World K} {name symbol : Arg String} {a : Arr K} {m c : Id'}
    {ix : IndicesArg} (h : newMetric E name (.val a) c ix symbol w = (.ok m, w')) :
    ∃ oc b, w.objs[c]? = some oc ∧ oc.kind = .coordinates ∧ a.shape = [oc.syms.length, oc.syms.length] ∧
      (ix.getD 2 = [-1, -1] ∨ ix.getD 2 = [1, 1]) ∧ E.inv a = .ok b ∧ isSymmetric a = true ∧
      MOwn m c (c, ix.getD 2) [(ix.getD 2, a), ([1, -1], eye oc.syms.length), ([-1, 1], eye oc.syms.length),
        (negIndices (ix.getD 2), b)] w' := by
  rcases newMetric_cases E name a c ix symbol w with ⟨e, he⟩ | ⟨oc, h1, h2, h3, h4, h5, h6, h7⟩
  · rw [h] at he; cases he
  · rcases h7 with ⟨e, -, h7⟩ | ⟨b, h7, h8⟩
    · rw [h] at h7; cases h7
    · rw [h] at h8
      cases h8
      refine ⟨oc, b, h1, h2, h3, h6, h7, h5, ⟨oc, getElem?_append_old h1, h2⟩, _, getElem?_append_length _ _, rfl,
        rfl, rfl, ?_⟩
      simp [freshObj, Dict.get?_cons]

theorem entry_eye {n i j : Nat} (hi : i < n) (hj : j < n) : entry (eye n : Arr K) i j = delta i j := by
  unfold entry eye
  rw [Arr.get_ofFn (by rw [valid_cons, valid_cons, valid_nil]; exact ⟨hi, hj, rfl⟩)]
  rfl

/-- Declaring the results again and again. -/
theorem redeclare_spec {E : Engine K} (hE : ∀ x, E.simp x = x) {n : Nat} (hn : 0 < n) {m c : Id'} {g gi : Arr K}
    (hg : g.shape = [n, n]) (hgi : gi.shape = [n, n]) (hI : Inverse n (entry g) (entry gi)) {r : Nat}
    {src0 : List Int} {T : List Nat → K} (h0 : Config r src0) (cfgs : List (List Int)) :
    ∀ {w : World K} {src : List Int} {a : Arr K}, (∀ x ∈ cfgs, Config r x) → Config r src →
    MetricStored w m c g gi →
    (∃ oc, w.objs[c]? = some oc ∧ oc.kind = .coordinates ∧ oc.alive = true ∧ oc.syms.length = n) →
    Agree n r a (applyFactors n (List.zipWith (indexFactor (entry g) (entry gi)) src0 src) T) →
    ∃ b w', redeclare E m c cfgs src a w = (.ok b, w') ∧
      Agree n r b (applyFactors n (List.zipWith (indexFactor (entry g) (entry gi)) src0
        (cfgs.getLast?.getD src)) T) := by
  induction cfgs with
  | nil =>
    intro w src a _ _ _ _ ha
    exact ⟨a, w, rfl, ha⟩
  | cons tgt rest ih =>
    rintro w src a hx hs hm ⟨oc, c1, c2, c3, c4⟩ ha
    have hal : a.shape.length = r := by rw [ha.2.1]; simp
    have hargs : TensorArgsOK w (.val "T") (.val a) m c (.tuple src) (.val "T") := by
      obtain ⟨o, d, m1, m2, m3, -⟩ := hm
      refine ⟨⟨_, rfl⟩, ⟨_, rfl⟩, ⟨o, m1, m3⟩, oc, a, c1, c2, c3, rfl, ?_, Or.inr ⟨src, rfl, ?_⟩⟩
      · intro d hd
        rw [ha.2.1, List.mem_replicate] at hd
        rw [hd.2, c4]
      · rw [hal]; exact hs
    obtain ⟨t, w1, ht⟩ := (newTensor_iff (kind := .tensor)).1 hargs
    have hown := own_new E hm ht
    have htc := hx tgt (by simp)
    obtain ⟨ho2, ho3⟩ := getComponents_ownValue hown (some tgt) none (Or.inl rfl)
    simp only [IndicesArg.getD, Option.getD_some] at hown ho2 ho3
    have hsr : src.length = r := hs.1
    obtain ⟨b, hb, hb2⟩ := ownValue_spec hE hn (ix0 := src) (src := src) (ix := tgt) ha.1 (by rw [hsr]; exact ha.2.1)
      hg hgi (by rw [hsr]; exact hs) rfl (by rw [hsr]; exact htc)
    rw [hb] at ho3
    rcases hget : getComponents E t none (some tgt) w1 with ⟨res, w2⟩
    rw [hget] at ho2 ho3
    dsimp only at ho2 ho3
    subst ho3
    have hfr1 : ∃ oc, w2.objs[c]? = some oc ∧ oc.kind = .coordinates ∧ oc.alive = true ∧ oc.syms.length = n := by
      have hs1 := getComponents_steady (E := E) t none (some tgt) w1
      rw [hget] at hs1
      have hc1 : w1.objs[c]? = some oc := by
        rcases newTensor_cases .tensor (.val "T") a m c (.tuple src) (.val "T") w with ⟨e, he⟩ | ⟨_, _, -, -, -, -, -, -, h6⟩
        · rw [ht] at he; cases he
        · rw [ht] at h6; cases h6
          exact getElem?_append_old c1
      obtain ⟨oc', e1, e2⟩ := hs1.get hc1
      refine ⟨oc', e1, (congrArg (·.1) e2).trans c2, ?_, ?_⟩
      · exact (congrArg (·.2.2.2.2.2.2.2.2) e2).trans c3
      · have := congrArg (·.2.2.2.2.2.2.1) e2
        exact (congrArg List.length this).trans c4
    have hm2 : MetricStored w2 m c g gi := by
      obtain ⟨om, dm, q⟩ := ho2.metric
      exact ⟨om, dm, q⟩
    have hag : Agree n r b (applyFactors n (List.zipWith (indexFactor (entry g) (entry gi)) src0 tgt) T) := by
      rw [hsr] at hb2
      refine ⟨hb2.1, hb2.2.1, ?_⟩
      intro J hl hJ
      rw [hb2.2.2 J hl hJ, ← raise_trans hI T src0 src tgt h0 hs htc J hl hJ]
      refine applyFactors_congr n _ J ?_
      intro I hIl hIn
      exact ha.2.2 I (hIl.trans hl) hIn
    obtain ⟨b', w', e1, e2⟩ := ih (fun x hx' => hx x (by simp [hx'])) htc hm2 hfr1 hag
    refine ⟨b', w', ?_, ?_⟩
    · show (newTensor .tensor (.val "T") (.val a) m c (.tuple src) (.val "T") >>= fun t =>
        getComponents E t none (some tgt) >>= fun b => redeclare E m c rest tgt b) w = _
      rw [PyM.bind_apply, ht]
      dsimp only
      rw [PyM.bind_apply, hget]
      exact e1
    · rw [List.getLast?_cons]
      cases hrl : rest.getLast? with
      | none => rw [hrl] at e2; exact e2
      | some y => rw [hrl] at e2; exact e2

/-- A metric whose components have been returned. -/
theorem metricStored_of_get {E : Engine K} {w w1 w2 : World K} {m c : Id'} {om : Obj K}
    (hm : w.objs[m]? = some om) (hk : om.kind = .metric) {g gi : Arr K}
    (hg : getComponents E m (some c) (some [-1, -1]) w = (.ok g, w1))
    (hgi : getComponents E m (some c) (some [1, 1]) w1 = (.ok gi, w2)) : MetricStored w2 m c g gi := by
  obtain ⟨d, h1, h2⟩ := getComponents_metric_stored hm hk hg
  have h3 := (getComponents_mown (E := E) m (some c) (some [1, 1]) w1 h1 trivial).1
  rw [hgi] at h3
  obtain ⟨o, k1, k2, k3, k4, k5⟩ := h3.metric
  obtain ⟨-, -, o', d', l1, l2, l3, l4⟩ := getComponents_stored hgi
  rw [k1] at l1; cases l1
  rw [k5] at l3; cases l3
  exact ⟨o, d, k1, k2, k3, k5, h2, l4⟩

theorem applyFactors_self {n : Nat} {g gi : Nat → Nat → K} (src : List Int) (T : List Nat → K) {J : List Nat}
    (hJ : ∀ x ∈ J, x < n) (hl : src.length = J.length) :
    applyFactors n (List.zipWith (indexFactor g gi) src src) T J = T J := by
  refine applyFactors_delta n _ _ J hJ (by simp [hl]) ?_
  intro M hM
  rw [zipWith_map_left_right] at hM
  obtain ⟨p, hp, rfl⟩ := List.mem_map.1 hM
  have hpp : p.1 = p.2 := zip_self_eq _ p hp
  have h1 : ¬ (p.1 = -1 ∧ p.2 = 1) := by rw [hpp]; omega
  have h2 : ¬ (p.1 = 1 ∧ p.2 = -1) := by rw [hpp]; omega
  intro i j _ _
  simp only [indexFactor, if_neg h1, if_neg h2]

end PyOGRe
