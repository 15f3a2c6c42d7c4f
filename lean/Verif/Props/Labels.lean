import Verif.Props.Settings
import Verif.Lemmas.Registry
import Verif.Spec.Line

/-!
# Labels given as text, rules given to the constructor, displays of coordinate systems: C78, C79, C80
-/

namespace PyOGRe
open Spec
variable {K : Type}

/-! ## C78 -/

/-- The labels in a string. -/
def Spec.labelNames (s : List Char) : List Sym := (namesIn s).map String.ofList

/-- The string is empty, or every part between commas has a label. -/
def Spec.Readable (s : List Char) : Prop := s = [] ∨ WellSeparated s

instance (s : List Char) : Decidable (Readable s) := by unfold Readable; infer_instance

theorem labelsOf_eq (ranges : List Char → Py Letters) {s : List Char} (hs : ∀ c ∈ s, c ≠ ':' ∧ c ≠ '\\') :
    (Readable s → labelsOf ranges s = .ok (labelNames s)) ∧ (¬ Readable s → labelsOf ranges s = .error .valueError) := by
  unfold labelsOf Readable
  by_cases h : s = []
  · subst h
    exact ⟨fun _ => rfl, fun hn => absurd (Or.inl rfl) hn⟩
  · rw [if_neg h, sympySymbolsSeq_eq ranges hs]
    refine ⟨fun hw => ?_, fun hn => ?_⟩
    · rw [if_pos (hw.resolve_left h)]; rfl
    · rw [if_neg fun hw => hn (Or.inr hw)]

/-- **C78**: calling a tensor with a string labels it with the names in the string, in their order, however they are
separated by white space and commas; a string with a part without a name is refused with `ValueError`, and nothing
changes. -/
theorem C78_call [CommRing K] (E : Engine K) (ranges : List Char → Py Letters) {w : World K} {t : Id'} {o : Obj K}
    (ho : w.objs[t]? = some o) (hk : o.kind ≠ .coordinates) {s : List Char} (hs : ∀ c ∈ s, c ≠ ':' ∧ c ≠ '\\') :
    (Readable s → callText E ranges t s w = calcInit E t (labelNames s) w) ∧
      (¬ Readable s → callText E ranges t s w = (.error .valueError, w)) := by
  have h1 : requireCallable (K := K) t w = (.ok (), w) := by
    unfold requireCallable
    rw [ho, if_neg (by simpa using hk)]
  obtain ⟨h2, h3⟩ := labelsOf_eq ranges hs
  unfold callText
  refine ⟨fun h => ?_, fun h => ?_⟩
  · exact PyM.then_ok h1 (PyM.then_ok (by rw [PyM.lift_apply, h2 h]) rfl)
  · refine PyM.then_ok h1 ?_
    refine (PyM.bind_apply _ _ _).trans ?_
    rw [PyM.lift_apply, h3 h]

/-- **C78** for coordinate systems: they cannot be labelled. -/
theorem C78_coordinates [CommRing K] (E : Engine K) (ranges : List Char → Py Letters) {w : World K} {t : Id'}
    {o : Obj K} (ho : w.objs[t]? = some o) (hk : o.kind = .coordinates) (s : List Char) :
    callText E ranges t s w = (.error .notImplementedError, w) := by
  have h1 : requireCallable (K := K) t w = (.error .notImplementedError, w) := by
    unfold requireCallable
    rw [ho, if_pos (by simpa using hk)]
  unfold callText
  refine (PyM.bind_apply _ _ _).trans ?_
  rw [h1]

/-- **C78** for derivatives: one label, or none. -/
theorem C78_derivative (ranges : List Char → Py Letters) (role : Role) {s : List Char}
    (hs : ∀ c ∈ s, c ≠ ':' ∧ c ≠ '\\') :
    derivativeText ranges role s =
      if Readable s ∧ (labelNames s).length ≤ 1 then derivative role (labelNames s) else .error .valueError := by
  unfold derivativeText derivative Readable
  by_cases h : s = []
  · subst h
    rfl
  · rw [if_neg h, sympySymbolsSeq_eq ranges hs]
    by_cases hw : WellSeparated s
    · rw [if_pos hw]
      have hne : (labelNames s).length ≠ 0 := by
        intro e
        exact namesIn_ne_nil hw (by simpa [labelNames] using e)
      have hl : (namesIn s).length = (labelNames s).length := by simp [labelNames]
      by_cases h1 : (labelNames s).length ≤ 1
      · rw [if_pos ⟨Or.inr hw, h1⟩, if_pos h1, py_ok_bind, if_neg (by rw [List.length_map, hl]; omega)]
        rfl
      · rw [if_neg fun hh => h1 hh.2, py_ok_bind, if_pos (by rw [List.length_map, hl]; omega)]
        rfl
    · rw [if_neg hw, if_neg (by
        rintro ⟨hh, -⟩
        exact hw (hh.resolve_left h))]
      rfl

/-- **C78** for `Calc`: the string gives the order of the labels of the result. -/
theorem C78_calc [CommRing K] (E : Engine K) (ranges : List Char → Py Letters) (x : CalcObj) (name symbol : String)
    {s : List Char} (hs : ∀ c ∈ s, c ≠ ':' ∧ c ≠ '\\') (w : World K) :
    (Readable s → calcText E ranges x name symbol (some s) w = calcResult E x name symbol (labelNames s) w) ∧
      (¬ Readable s → calcText E ranges x name symbol (some s) w = (.error .valueError, w)) := by
  obtain ⟨h2, h3⟩ := labelsOf_eq ranges hs
  unfold calcText
  refine ⟨fun h => ?_, fun h => ?_⟩
  · refine PyM.then_ok (a := labelNames s) (by rw [PyM.lift_apply]; exact congrArg (·, w) (h2 h)) ?_
    rw [Option.getD_some]
    split_ifs with hc
    · have hne : labelNames s ≠ [] := by
        intro e
        exact namesIn_ne_nil (h.resolve_left hc.1) (by simpa [labelNames] using e)
      unfold calcResult
      rw [if_pos ⟨hne, hc.2⟩]
    · rfl
  · refine (PyM.bind_apply _ _ _).trans ?_
    rw [PyM.lift_apply, Option.getD_some, h3 h]

/-- C78: strings with the same labels, and some that are refused. -/
example : labelNames "mu nu".toList = ["mu", "nu"] ∧ labelNames " mu, nu ,".toList = ["mu", "nu"] ∧
    WellSeparated "mu nu".toList ∧ WellSeparated " mu, nu ,".toList ∧ ¬ WellSeparated "mu,,nu".toList ∧
    ¬ WellSeparated "  ".toList := by
  decide +kernel

/-! ## C79 -/

theorem modify_last {A : Type} (l : List A) (x : A) (f : A → A) : (l ++ [x]).modify l.length f = l ++ [f x] := by
  induction l with
  | nil => rfl
  | cons y l ih => simpa using ih

/-- The rules for one target after the other. -/
def Spec.addRules (c : Id') (d : Dict Id' (List (RuleArg K))) : PyM K Unit :=
  d.forM fun p => addCoordTransformationArg c p.1 (some p.2)

theorem givenRules_ok {w : World K} {l : List Id'} (O : Dict Id' (List (Option (Sym × K))) → Obj K)
    (hO : ∀ tr, (O tr).alive = true) (hu : ∀ tr tr', { O tr with trans := tr' } = O tr') (htr : ∀ tr, (O tr).trans = tr) :
    ∀ (d : Dict Id' (List (RuleArg K))) (done : Dict Id' (List (Option (Sym × K)))),
      (∀ p ∈ d, (∃ o, w.objs[p.1]? = some o ∧ o.kind = .coordinates) ∧ p.2.all RuleArg.ok = true) →
      (done.map (·.1) ++ d.map (·.1)).Nodup →
      addRules w.objs.length d ⟨w.objs ++ [O done], l⟩ =
        (.ok (), ⟨w.objs ++ [O (done ++ d.map fun p => (p.1, p.2.map RuleArg.value))], l⟩) := by
  intro d
  induction d with
  | nil =>
    intro done _ _
    rw [List.map_nil, List.append_nil]
    rfl
  | cons p d ih =>
    intro done hd hn
    obtain ⟨⟨o, ho, hk⟩, hok⟩ := hd p (by simp)
    have hlt : p.1 < w.objs.length := (List.getElem?_eq_some_iff.1 ho).1
    have hnew : ∀ q ∈ done, q.1 ≠ p.1 := by
      intro q hq e
      rw [List.nodup_append] at hn
      exact hn.2.2 q.1 (List.mem_map_of_mem hq) p.1 (by simp) e
    have hstep : addCoordTransformationArg w.objs.length p.1 (some p.2) ⟨w.objs ++ [O done], l⟩ =
        (.ok (), ⟨w.objs ++ [O (done ++ [(p.1, p.2.map RuleArg.value)])], l⟩) := by
      have h1 : isCoordinates (K := K) p.1 ⟨w.objs ++ [O done], l⟩ = (.ok true, ⟨w.objs ++ [O done], l⟩) := by
        show (Except.ok (((w.objs ++ [O done])[p.1]?).any _), _) = _
        rw [List.getElem?_append_left hlt, ho]
        simp [hk]
      have hne : w.objs.length ≠ p.1 := fun e => absurd hlt (by rw [e]; exact Nat.lt_irrefl _)
      have h2 : (w.objs ++ [O done])[w.objs.length]? = some (O done) := by simp
      unfold addCoordTransformationArg
      refine PyM.then_ok h1 ?_
      simp only [Bool.not_true, Bool.false_eq_true, if_false]
      rw [if_neg hne, if_neg (by simp [hok])]
      unfold addCoordTransformation
      refine PyM.then_ok h1 ?_
      simp only [Bool.not_true, Bool.false_eq_true, if_false]
      rw [if_neg hne]
      refine PyM.then_ok (getObj_ok h2 (hO done)) ?_
      show (Except.ok (), (⟨(w.objs ++ [O done]).modify w.objs.length _, l⟩ : World K)) = _
      rw [modify_last, htr, PyOGRe.set_new _ _ _ hnew, hu]
    show (addCoordTransformationArg w.objs.length p.1 (some p.2) >>= fun _ => addRules w.objs.length d) _ = _
    refine PyM.then_ok hstep ?_
    rw [ih _ (fun q hq => hd q (List.mem_cons_of_mem _ hq)) (by
      rw [List.map_append, List.append_assoc]
      exact hn)]
    rw [List.map_cons, List.append_assoc]
    rfl

/-- **C79**: a coordinate system declared with transformations is the one declared without them to which these
transformations are added afterwards, for any number of targets. -/
theorem C79_initial_rules (name : Arg String) (shape : Arg (List Nat)) (syms : List Sym) (ix : IndicesArg)
    (symbol : Arg String) (d : Dict Id' (List (RuleArg K))) (w : World K)
    (hd : ∀ p ∈ d, (∃ o, w.objs[p.1]? = some o ∧ o.kind = .coordinates) ∧ ∀ r ∈ p.2, r ≠ .other)
    (hn : (d.map (·.1)).Nodup) :
    newCoordinatesWith name shape syms ix symbol d w = (do
      let c ← newCoordinates name shape syms ix symbol
      addRules c d
      return c) w := by
  have hok : ∀ p ∈ d, p.2.all RuleArg.ok = true := by
    intro p hp
    rw [List.all_eq_true]
    intro r hr
    have := (hd p hp).2 r hr
    cases r with
    | rule x e => rfl
    | none => rfl
    | other => exact absurd rfl this
  have hall : (d.all fun p => p.2.all RuleArg.ok) = true := by
    rw [List.all_eq_true]
    exact hok
  unfold newCoordinatesWith newCoordinates
  rw [hall]
  cases hv : validateCoordinates name shape ix symbol true with
  | error e =>
    refine (PyM.bind_apply _ _ _).trans ?_
    rw [PyM.lift_apply]
    refine Eq.symm ((PyM.bind_apply _ _ _).trans ?_)
    rw [PyM.bind_apply, PyM.lift_apply]
  | ok u =>
    refine PyM.then_ok (a := u) rfl ?_
    refine Eq.symm (PyM.then_ok (a := w.objs.length) rfl ?_)
    have := givenRules_ok (w := w) (l := w.instances ++ [w.objs.length]) (fun tr => (
      { kind := .coordinates, name := name.getD "", symbol := symbol.getD "", indices := ix.getD 1,
        coords := 0, metric := 0, comps := [], syms := syms, trans := tr, jac := [], alive := true } : Obj K))
      (fun _ => rfl) (fun _ _ => rfl) (fun _ => rfl) d [] (fun p hp => ⟨(hd p hp).1, hok p hp⟩) (by simpa using hn)
    exact PyM.then_ok this rfl

/-- **C79**: a rule that is neither an equation nor `None` is refused, at construction (with the default `indices`) and
afterwards, and nothing changes. -/
theorem C79_refused (name : Arg String) (shape : Arg (List Nat)) (syms : List Sym)
    (symbol : Arg String) (d : Dict Id' (List (RuleArg K))) {c c' : Id'} {rules : List (RuleArg K)} (w : World K)
    (hd : (c', rules) ∈ d) (hr : .other ∈ rules) :
    (∃ e, newCoordinatesWith name shape syms (.tuple [1]) symbol d w = (.error e, w)) ∧
    ∃ e, addCoordTransformationArg c c' (some rules) w = (.error e, w) := by
  constructor
  · have hall : (d.all fun p => p.2.all RuleArg.ok) = false := by
      rw [List.all_eq_false]
      refine ⟨_, hd, ?_⟩
      simp only [Bool.not_eq_true, List.all_eq_false]
      exact ⟨_, hr, by simp [RuleArg.ok]⟩
    have : ∃ e, validateCoordinates name shape (.tuple [1]) symbol false = .error e := by
      unfold validateCoordinates
      cases hv : validateOGReObject name shape symbol (.tuple [1]) with
      | error e => exact ⟨e, rfl⟩
      | ok u =>
        rw [py_ok_bind]
        cases shape with
        | val s => exact ⟨.typeError, by simp⟩
        | other => exact ⟨.typeError, rfl⟩
    obtain ⟨e, he⟩ := this
    refine ⟨e, ?_⟩
    unfold newCoordinatesWith
    rw [hall, he]
    rfl
  · have hno : rules.all RuleArg.ok = false := List.all_eq_false.2 ⟨_, hr, by simp [RuleArg.ok]⟩
    unfold addCoordTransformationArg
    simp only [hno, Bool.not_false, if_true]
    rw [PyM.bind_apply]
    rcases h : isCoordinates (K := K) c' w with ⟨b, w1⟩
    have e1 : w1 = w := (congrArg Prod.snd h).symm
    subst e1
    cases b with
    | error e => exact ⟨e, rfl⟩
    | ok b =>
      cases b with
      | false => exact ⟨_, rfl⟩
      | true =>
        by_cases hcc : c = c'
        · exact ⟨.transformationError, by simp [hcc]⟩
        · exact ⟨.typeError, by simp [hcc]⟩

/-- C79 is false of the code with `indices=None`: then the rules are not checked, and the coordinate system is
registered whatever they are. -/
theorem C79_unchecked_false (name symbol : String) (n : Nat) (syms : List Sym) (c' : Id') (w : World K) :
    (newCoordinatesWith (.val name) (.val [n]) syms .none (.val symbol) [(c', [RuleArg.other])] w).1 =
      .ok w.objs.length := by
  have : validateCoordinates (.val name) (.val [n]) .none (.val symbol) false = .ok () := by
    simp [validateCoordinates, validateOGReObject, validateIndicesRank, headDim]
  unfold newCoordinatesWith
  show ((PyM.lift (validateCoordinates (.val name) (.val [n]) .none (.val symbol) false) >>= _ : PyM K _) w).1 = _
  rw [this]
  rfl

/-- C79: two coordinate systems, the second with rules for the first. -/
example : (newCoordinatesWith (.val "B") (.val [1]) ["y"] (.tuple [1]) (.val "y") [(0, [.rule "y" 2])]
      (newCoordinates (.val "A") (.val [1]) ["x"] (.tuple [1]) (.val "x") (fresh : World ℚ)).2).2 =
    ⟨[⟨.coordinates, "A", "x", [1], 0, 0, [], ["x"], [], [], true⟩,
      ⟨.coordinates, "B", "y", [1], 0, 0, [], ["y"], [(0, [some ("y", 2)])], [], true⟩], [0, 1]⟩ := by
  decide +kernel

/-! ## C80 -/

/-- **C80**: `list` of a coordinate system shows one entry for each coordinate, in their order, and changes nothing. -/
theorem C80_list (T : Typeset K) (var : Sym → K) (opt : Options) {w : World K} {c : Id'} {o : Obj K}
    (ho : w.objs[c]? = some o) (ha : o.alive = true) :
    (opt.latex = false → ∃ out, listCoordinates T var opt c w = (.ok out, w) ∧ out.length = o.syms.length + 1 ∧
      out[0]? = some (.line (o.name.toList ++ [':'])) ∧
      ∀ i x, o.syms[i]? = some x → out[i + 1]? = some (.equation (o.symbol.toList ++ '^' :: x.toList) (var x))) ∧
    (opt.latex = true → ∃ head foot text, listCoordinates T var opt c w = (.ok [.markdown (head ++ text ++ foot)], w) ∧
      o.name.toList <:+: head ∧
      text = "\\\\[5pt]".toList.intercalate (o.syms.map fun x =>
        T.symbol (o.symbol ++ "^" ++ x) ++ " &= ".toList ++ T.symbol x)) := by
  unfold listCoordinates
  refine ⟨fun h => ?_, fun h => ?_⟩
  · refine ⟨_, PyM.then_ok (getObj_ok ho ha) rfl, ?_⟩
    rw [h]
    refine ⟨by simp, rfl, fun i x hx => ?_⟩
    simp only [Bool.false_eq_true, if_false, List.getElem?_cons_succ, List.getElem?_map, hx, Option.map_some]
    simp
  · refine ⟨"<div align=center style='font-size:".toList ++ intText (opt.fontSize + 2) ++ "pt'> \n\n".toList ++
        o.name.toList ++ ":".toList ++ "\n\n </div>".toList ++ "<div align=center style='font-size:".toList ++
        intText opt.fontSize ++ "pt'> \n\n $$ \n".toList ++ "\\begin{aligned} \n".toList,
      "\n \\end{aligned} \n $$ \n\n </div>".toList, _, PyM.then_ok (getObj_ok ho ha) ?_, ?_, rfl⟩
    · rw [if_pos h, joinText_eq]
      rfl
    · simp only [List.append_assoc]
      rw [← List.append_assoc, ← List.append_assoc]
      exact ⟨_, _, (List.append_assoc _ _ _).trans rfl⟩

/-- **C80**: `show` of a coordinate system shows its name, its symbol with an index, and the coordinates as a column. -/
theorem C80_show [Zero K] (T : Typeset K) (var : Sym → K) (opt : Options) {w : World K} {c : Id'} {o : Obj K}
    (ho : w.objs[c]? = some o) (ha : o.alive = true) (hi : o.indices = [1]) {x : Sym} {letters : List Sym}
    (hl : opt.letters = .many (x :: letters)) :
    ∃ a : Arr K, showCoordinates T var opt c w = (.ok [.array (o.name.toList ++ [':'])
        (symbolText T.symbol opt.latex o.symbol ++ indexed T.symbol opt.latex [1] [x]) [] a], w) ∧
      a.shape = [o.syms.length, 1] ∧ ∀ i y, o.syms[i]? = some y → a.get [i, 0] = var y := by
  refine ⟨⟨[o.syms.length, 1], o.syms.map var⟩, ?_, rfl, fun i y hy => ?_⟩
  · have h1 : eqSymbol T opt o o.indices =
        .ok (symbolText T.symbol opt.latex o.symbol ++ indexed T.symbol opt.latex [1] [x]) := by
      unfold eqSymbol
      rw [hl, hi]
      unfold symbolText indexed indexed withIndices withIndices
      by_cases hs : o.symbol = "" <;> cases opt.latex <;> simp [hs]
    unfold showCoordinates
    exact PyM.then_ok (getObj_ok ho ha) (PyM.then_ok (a := symbolText T.symbol opt.latex o.symbol ++
      indexed T.symbol opt.latex [1] [x]) (by rw [PyM.lift_apply, h1]) rfl)
  · have : i < o.syms.length := (List.getElem?_eq_some_iff.1 hy).1
    have hv : o.syms[i] = y := (List.getElem?_eq_some_iff.1 hy).2
    simp [Arr.get, ravel, this, hv]

/-- **C80**: `get_components` of a coordinate system returns the coordinates in the requested mode; other modes are
refused; nothing changes. -/
theorem C80_components (P : Printers K) (var : Sym → K) {w : World K} {c : Id'} {o : Obj K}
    (ho : w.objs[c]? = some o) (ha : o.alive = true) (mode : String) :
    (mode.toLower = "sympy" → coordinatesComponents P var c (some mode) w =
      (.ok (.array ⟨[o.syms.length], o.syms.map var⟩), w)) ∧
    (mode.toLower = "mathematica" → coordinatesComponents P var c (some mode) w =
      (.ok (.text (P.mathematica ⟨[o.syms.length], o.syms.map var⟩)), w)) ∧
    (mode.toLower = "latex" → coordinatesComponents P var c (some mode) w =
      (.ok (.text (P.latex ⟨[o.syms.length, 1], o.syms.map var⟩)), w)) ∧
    (mode.toLower ∉ ["sympy", "mathematica", "latex"] →
      coordinatesComponents P var c (some mode) w = (.error .valueError, w)) ∧
    coordinatesComponents P var c none w = (.error .typeError, w) := by
  unfold coordinatesComponents
  refine ⟨fun h => ?_, fun h => ?_, fun h => ?_, fun h => ?_, rfl⟩
  · dsimp only
    rw [if_neg (by rw [h]; simp)]
    refine PyM.then_ok (getObj_ok ho ha) ?_
    rw [if_pos h]
    rfl
  · dsimp only
    rw [if_neg (by rw [h]; simp)]
    refine PyM.then_ok (getObj_ok ho ha) ?_
    rw [if_neg (by rw [h]; decide), if_pos h]
    rfl
  · dsimp only
    rw [if_neg (by rw [h]; simp)]
    refine PyM.then_ok (getObj_ok ho ha) ?_
    rw [if_neg (by rw [h]; decide), if_neg (by rw [h]; decide)]
    rfl
  · dsimp only
    rw [if_pos h]
    rfl

/-- C80: a coordinate system is listed and shown. -/
example : (listCoordinates ⟨fun _ => [], String.toList⟩ (fun x => (x.length : ℚ)) { latex := false } 0
      (newCoordinates (.val "A") (.val [2]) ["x", "yy"] (.tuple [1]) (.val "x") (fresh : World ℚ)).2).1 =
    .ok [.line "A:".toList, .equation "x^x".toList 1, .equation "x^yy".toList 2] ∧
  (showCoordinates ⟨fun _ => [], String.toList⟩ (fun x => (x.length : ℚ)) { latex := false } 0
      (newCoordinates (.val "A") (.val [2]) ["x", "yy"] (.tuple [1]) (.val "x") (fresh : World ℚ)).2).1 =
    .ok [.array "A:".toList "x^a".toList [] ⟨[2, 1], [1, 2]⟩] := by
  decide +kernel

end PyOGRe
