import Verif.Lemmas.ShapeCalls

/-! Helper lemmas: the shapes of arrays in sessions. -/

namespace PyOGRe
open Spec
variable {K : Type} {n : Nat}

section
variable [CommRing K] {E : Engine K} [Tame E n] {α β : Type}

omit [CommRing K] in
theorem Sh.requireTensor (t : Id') : Sh n (K := K) (requireTensor t) := by
  refine Sh.reads fun w => ?_
  unfold PyOGRe.requireTensor
  split_ifs <;> rfl

theorem Sh.tensorOf (x : CalcObj) : Sh n (K := K) (PyOGRe.tensorOf x) := by
  unfold PyOGRe.tensorOf
  cases x.tensor with
  | none => exact Sh.raise
  | some t => exact Sh.bind (Sh.getObj _) fun _ _ => Sh.done _

theorem Sh.metricAttr (x : CalcObj) : Sh n (K := K) (PyOGRe.metricAttr x) := Sh.reads fun _ => rfl

theorem Sh.defaultComps (t : Id') : Sh n (K := K) (PyOGRe.defaultComps t) := by
  unfold PyOGRe.defaultComps
  exact Sh.bind (Sh.getObj _) fun _ _ => Sh.readComps _ _ _

theorem Sh.newTemp (a : Arr K) (m c : Id') (ix : List Int) (s : String) : Sh n (PyOGRe.newTemp a m c ix s) :=
  Sh.newTensor _ _ _ _ _ _ _

theorem Sh.traceStep (s : Sym) (t : Id') (labels : List Sym) : Sh n (traceStep E s t labels) := by
  unfold PyOGRe.traceStep
  dsimp only
  exact Sh.ite Sh.raise (Sh.ite (Sh.bind (Sh.getObj _) fun _ _ => Sh.bind (Sh.lift _) fun _ _ =>
    Sh.bind (Sh.lift _) fun _ _ => Sh.bind (Sh.getComponents _ _ _) fun _ _ => Sh.bind (Sh.getComponents _ _ _) fun _ _ =>
    Sh.bind (Sh.lift _) fun _ _ => Sh.bind (Sh.getObj _) fun _ _ => Sh.bind (Sh.newTemp _ _ _ _ _) fun _ _ => Sh.done _)
    (Sh.done _))

theorem Sh.traceLoop (ls : List Sym) : ∀ (t : Id') (labels : List Sym), Sh n (traceLoop E ls t labels) := by
  induction ls with
  | nil => exact fun t labels => Sh.done _
  | cons s ls ih => exact fun t labels => Sh.bind (Sh.traceStep _ _ _) fun r _ => ih _ _

theorem Sh.calcInit (t : Id') (labels : List Sym) : Sh n (calcInit E t labels) := by
  unfold PyOGRe.calcInit
  refine Sh.bind (Sh.requireTensor _) fun _ _ => ?_
  exact Sh.bind (Sh.getObj _) fun _ _ => Sh.bind (Sh.getComponents _ _ _) fun _ _ => Sh.bind (Sh.lift _) fun _ _ =>
    Sh.bind (Sh.traceLoop _ _ _) fun _ _ => Sh.done _

theorem Sh.calcAddObj (x y : CalcObj) : Sh n (calcAddObj E x y) := by
  unfold PyOGRe.calcAddObj
  refine Sh.ite Sh.raise (Sh.bind (Sh.metricAttr _) fun _ _ => Sh.bind (Sh.metricAttr _) fun _ _ => Sh.ite Sh.raise
    (Sh.bind (Sh.tensorOf _) ?_))
  rintro ⟨tx, ox⟩ -
  refine Sh.bind (Sh.tensorOf _) ?_
  rintro ⟨ty, oy⟩ -
  exact Sh.ite Sh.raise (Sh.ite Sh.raise (Sh.bind (Sh.getComponents _ _ _) fun _ _ => Sh.bind (Sh.lift _) fun _ _ =>
    Sh.bind (Sh.lift _) fun _ _ => Sh.bind (Sh.lift _) fun _ _ => Sh.bind (Sh.getComponents _ _ _) fun _ _ =>
    Sh.bind (Sh.lift _) fun _ _ => Sh.bind (Sh.lift _) fun _ _ => Sh.bind (Sh.newTemp _ _ _ _ _) fun _ _ =>
    Sh.calcInit _ _))

theorem Sh.requireArray (x : CalcObj) : Sh n (K := K) (PyOGRe.requireArray x) :=
  Sh.reads (requireArray_state x)

theorem Sh.calcNeg (x : CalcObj) : Sh n (calcNeg E x) := by
  unfold PyOGRe.calcNeg
  refine Sh.bind (Sh.requireArray x) fun _ _ => Sh.ite Sh.raise (Sh.bind (Sh.tensorOf _) ?_)
  rintro ⟨tx, ox⟩ -
  exact Sh.bind (Sh.defaultComps _) fun _ _ => Sh.bind (Sh.newTemp _ _ _ _ _) fun _ _ => Sh.calcInit _ _

theorem Sh.scaleBy (s t : Id') (l : List Sym) : Sh n (scaleBy E s t l) := by
  unfold PyOGRe.scaleBy
  exact Sh.bind (Sh.getObj _) fun _ _ => Sh.bind (Sh.getComponents _ _ _) fun _ _ => Sh.bind (Sh.readComps _ _ _) fun _ _ =>
    Sh.done _

theorem Sh.mulParts (tx ty : Id') (ox oy : Obj K) (lx ly : List Sym) :
    Sh n (mulParts E tx ty ox oy lx ly) := by
  unfold PyOGRe.mulParts
  refine Sh.ite (Sh.ite (Sh.bind (Sh.scaleBy _ _ _) fun _ _ => Sh.scaleBy _ _ _) (Sh.scaleBy _ _ _)) (Sh.scaleBy _ _ _)

theorem Sh.calcMul (x : CalcObj) (y : CalcArg K) : Sh n (calcMul E x y) := by
  cases y with
  | other => exact Sh.ite Sh.raise Sh.raise
  | num v =>
    unfold PyOGRe.calcMul
    refine Sh.ite Sh.raise (Sh.bind (Sh.tensorOf _) ?_)
    rintro ⟨tx, ox⟩ -
    exact Sh.bind (Sh.defaultComps _) fun _ _ => Sh.bind (Sh.newTemp _ _ _ _ _) fun _ _ => Sh.calcInit _ _
  | obj y =>
    unfold PyOGRe.calcMul
    refine Sh.ite Sh.raise (Sh.bind (Sh.tensorOf _) ?_)
    rintro ⟨ty, oy⟩ -
    refine Sh.bind (Sh.tensorOf _) ?_
    rintro ⟨tx, ox⟩ -
    exact Sh.ite Sh.raise (Sh.bind (Sh.mulParts _ _ _ _ _ _) fun _ _ => Sh.bind (Sh.newTemp _ _ _ _ _) fun _ _ =>
      Sh.calcInit _ _)

theorem Sh.matmulTensors (x y : CalcObj) : Sh n (matmulTensors E x y) := by
  unfold PyOGRe.matmulTensors
  refine Sh.bind (Sh.metricAttr _) fun _ _ => Sh.bind (Sh.metricAttr _) fun _ _ => Sh.ite Sh.raise
    (Sh.bind (Sh.tensorOf _) ?_)
  rintro ⟨tx, ox⟩ -
  refine Sh.bind (Sh.tensorOf _) ?_
  rintro ⟨ty, oy⟩ -
  exact Sh.ite (Sh.calcMul _ _) (Sh.bind (Sh.getComponents _ _ _) fun _ _ => Sh.bind (Sh.lift _) fun _ _ =>
    Sh.bind (Sh.getComponents _ _ _) fun _ _ => Sh.bind (Sh.lift _) fun _ _ => Sh.bind (Sh.lift _) fun _ _ =>
    Sh.bind (Sh.newTemp _ _ _ _ _) fun _ _ => Sh.calcInit _ _)

theorem Sh.matmulPartial (d : List Sym) (y : CalcObj) (l : List Sym) : Sh n (matmulPartial E d y l) := by
  unfold PyOGRe.matmulPartial
  refine Sh.bind (Sh.tensorOf _) ?_
  rintro ⟨ty, oy⟩ -
  exact Sh.bind (Sh.lift _) fun _ _ => Sh.bind (Sh.lift _) fun _ _ => Sh.bind (Sh.getComponents _ _ _) fun _ _ =>
    Sh.bind (Sh.getObj _) fun _ _ => Sh.bind (Sh.lift _) fun _ _ => Sh.bind (Sh.newTemp _ _ _ _ _) fun _ _ =>
    Sh.calcInit _ _

theorem Sh.deletePasses : Sh n (K := K) (timesDo (PyOGRe.deletePass (hasName "TEMP") deleteObj) 2) :=
  Sh.bind Sh.deletePass fun _ _ => Sh.bind Sh.deletePass fun _ _ => Sh.done _

theorem Sh.calcResult (x : CalcObj) (name symbol : String) (ix : List Sym) :
    Sh n (calcResult E x name symbol ix) := by
  unfold PyOGRe.calcResult
  refine Sh.ite Sh.raise (Sh.bind (Sh.lift _) fun _ _ => Sh.bind (Sh.tensorOf _) ?_)
  rintro ⟨tx, ox⟩ -
  exact Sh.bind (Sh.lift _) fun _ _ => Sh.bind (Sh.getComponents _ _ _) fun _ _ => Sh.bind (Sh.lift _) fun _ _ =>
    Sh.bind (Sh.newTensor _ _ _ _ _ _ _) fun t ht => Sh.bind Sh.deletePasses fun _ _ => Sh.done _

variable [DecidableEq K]

theorem Sh.calcAdd (x : CalcObj) (y : CalcArg K) : Sh n (calcAdd E x y) := by
  cases y with
  | other => exact Sh.raise
  | num v => exact Sh.ite (Sh.done _) Sh.raise
  | obj y => exact Sh.calcAddObj _ _

theorem Sh.calcSub (x : CalcObj) (y : CalcArg K) : Sh n (calcSub E x y) := by
  cases y with
  | other => exact Sh.raise
  | num v => exact Sh.ite (Sh.done _) Sh.raise
  | obj y =>
    unfold PyOGRe.calcSub
    refine Sh.ite Sh.raise (Sh.bind (Sh.tensorOf _) ?_)
    rintro ⟨tx, ox⟩ -
    refine Sh.bind (Sh.tensorOf _) ?_
    rintro ⟨ty, oy⟩ -
    exact Sh.ite Sh.raise (Sh.ite Sh.raise (Sh.bind (Sh.calcNeg _) fun _ _ => Sh.calcAddObj _ _))

variable [Algebra ℚ K]

theorem Sh.calcChristoffel (m : Id') : Sh n (calcChristoffel E m) := by
  unfold PyOGRe.calcChristoffel requireMetric
  refine Sh.bind ?_ fun _ _ => Sh.bind (Sh.getObj _) fun om _ =>
    Sh.bind (Sh.reads fun _ => rfl) fun r _ => ?_
  · exact Sh.bind (Sh.isMetric _) fun _ _ => Sh.ite Sh.raise (Sh.done _)
  cases r with
  | some t => exact Sh.done _
  | none =>
    dsimp only
    unfold computeChristoffel
    refine Sh.bind (Sh.getObj _) fun _ _ => Sh.bind (Sh.copyAs _ _) fun i hi =>
      Sh.bind (Sh.changeDefaultIndices _ _) fun _ _ => Sh.bind (Sh.change fun _ => ⟨rfl, rfl, rfl, rfl, rfl, rfl⟩) fun _ _ =>
      Sh.bind (Sh.calcInit _ _) fun _ _ => Sh.bind (Sh.calcMul _ _) fun _ _ => Sh.bind (Sh.calcInit _ _) fun _ _ =>
      Sh.bind (Sh.matmulPartial _ _ _) fun _ _ => Sh.bind (Sh.calcInit _ _) fun _ _ =>
      Sh.bind (Sh.matmulPartial _ _ _) fun _ _ => Sh.bind (Sh.calcAddObj _ _) fun _ _ => Sh.bind (Sh.calcInit _ _) fun _ _ =>
      Sh.bind (Sh.matmulPartial _ _ _) fun _ _ => Sh.bind (Sh.calcSub _ _) fun _ _ =>
      Sh.bind (Sh.matmulTensors _ _) fun _ _ => Sh.bind (Sh.calcResult _ _ _ _) fun t ht =>
      Sh.bind (Sh.getComponents _ _ _) fun _ _ => Sh.bind (Sh.getObj _) fun _ _ =>
      Sh.bind (Sh.newTensor _ _ _ _ _ _ _) fun _ _ => Sh.bind Sh.deletePass fun _ _ =>
      Sh.bind (Sh.delete _) fun _ _ => Sh.done _

theorem Sh.covariantTerms (c t : Id') (ls : List (List Sym × List Sym)) :
    Sh n (covariantTerms E c t ls) := by
  induction ls with
  | nil => exact Sh.done _
  | cons l ls ih =>
    unfold PyOGRe.covariantTerms covariantTerm
    exact Sh.bind (Sh.bind (Sh.calcInit _ _) fun _ _ => Sh.bind (Sh.calcInit _ _) fun _ _ => Sh.matmulTensors _ _)
      fun _ _ => Sh.bind ih fun _ _ => Sh.done _

theorem Sh.sumCalc (l : List CalcObj) : Sh n (sumCalc E l) := by
  have h : ∀ (l : List CalcObj) x, Sh n (addAll E x l) := by
    intro l
    induction l with
    | nil => exact fun x => Sh.done _
    | cons y l ih => exact fun x => Sh.bind (Sh.calcAddObj _ _) fun _ _ => ih _
  cases l with
  | nil => exact Sh.done _
  | cons x l => exact Sh.bind (Sh.calcAdd _ _) fun _ _ => Sh.bind (h _ _) fun _ _ => Sh.done _

theorem Sh.matmulCovariant (letters d : List Sym) (y : CalcObj) (ps : List Sym → Py Sym) (l l' : List Sym) :
    Sh n (matmulCovariant E letters d y ps l l') := by
  unfold PyOGRe.matmulCovariant
  refine Sh.bind (Sh.tensorOf _) ?_
  rintro ⟨_, oy⟩ -
  refine Sh.bind (Sh.calcChristoffel _) fun _ _ => Sh.bind (Sh.lift _) fun _ _ => Sh.bind (Sh.lift _) fun _ _ =>
    Sh.bind (Sh.tensorOf _) ?_
  rintro ⟨ty, oy'⟩ -
  refine Sh.bind (Sh.matmulPartial _ _ _) fun _ _ => Sh.bind (Sh.covariantTerms _ _ _) fun _ _ =>
    Sh.bind (Sh.sumCalc _) fun _ _ => Sh.bind (Sh.calcAdd _ _) fun _ _ => Sh.bind (Sh.covariantTerms _ _ _) fun _ _ =>
    Sh.bind (Sh.sumCalc _) fun _ _ => Sh.bind (Sh.calcSub _ _) fun _ _ => Sh.bind (Sh.tensorOf _) ?_
  rintro ⟨tx, _⟩ -
  refine Sh.bind (Sh.calcInit _ _) fun _ _ => Sh.bind (Sh.calcResult _ _ _ _) fun r hr =>
    Sh.bind (Sh.getComponents _ _ _) fun _ _ => Sh.bind (Sh.tensorOf _) ?_
  rintro ⟨_, oy''⟩ -
  exact Sh.bind (Sh.delete _) fun _ _ => Sh.bind (Sh.newTemp _ _ _ _ _) fun _ _ => Sh.calcInit _ _

theorem Sh.calcMatmul (letters : List Sym) (x y : CalcObj) : Sh n (calcMatmul E letters x y) := by
  unfold PyOGRe.calcMatmul
  rcases x with ⟨rx, tx, lx⟩
  rcases y with ⟨ry, ty, ly⟩
  cases rx <;> cases ry <;> first
    | exact Sh.matmulTensors _ _
    | exact Sh.matmulPartial _ _ _
    | exact Sh.matmulCovariant _ _ _ _ _ _
    | exact Sh.raise

theorem Sh.eval (letters : List Sym) (e : Expr K) : Sh n (e.eval E letters) := by
  induction e with
  | tensor t l => exact Sh.calcInit _ _
  | scale v e ih => exact Sh.bind ih fun _ _ => Sh.calcMul _ _
  | times e f ih ih' => exact Sh.bind ih fun _ _ => Sh.bind ih' fun _ _ => Sh.calcMul _ _
  | neg e ih => exact Sh.bind ih fun _ _ => Sh.calcNeg _
  | add e f ih ih' => exact Sh.bind ih fun _ _ => Sh.bind ih' fun _ _ => Sh.calcAddObj _ _
  | sub e f ih ih' => exact Sh.bind ih fun _ _ => Sh.bind ih' fun _ _ => Sh.calcSub _ _
  | mul e f ih ih' => exact Sh.bind ih fun _ _ => Sh.bind ih' fun _ _ => Sh.calcMatmul _ _ _
  | derivative r l => exact Sh.lift _

theorem Sh.requireMetric (m : Id') : Sh n (K := K) (requireMetric m) := by
  unfold PyOGRe.requireMetric
  exact Sh.bind (Sh.isMetric _) fun _ _ => Sh.ite Sh.raise (Sh.done _)

theorem Sh.requireCoords (c : Option Id') : Sh n (K := K) (requireCoords c) := by
  unfold PyOGRe.requireCoords
  refine Sh.bind ?_ fun _ _ => Sh.ite Sh.raise (Sh.done _)
  cases c with
  | none => exact Sh.done _
  | some c => exact Sh.isCoordinates _

theorem Sh.productOf (a : Id') (la : List Sym) (b : Id') (lb : List Sym) :
    Sh n (productOf E a la b lb) :=
  Sh.bind (Sh.calcInit _ _) fun _ _ => Sh.bind (Sh.calcInit _ _) fun _ _ => Sh.matmulTensors _ _

theorem Sh.partialOf (d : Sym) (t : Id') (labels : List Sym) : Sh n (partialOf E d t labels) :=
  Sh.bind (Sh.calcInit _ _) fun _ _ => Sh.matmulPartial _ _ _

theorem Sh.unlessNamed {name : String} {p : PyM K Id'} (hp : Sh n p) :
    Sh n (unlessNamed name p) := by
  unfold PyOGRe.unlessNamed
  refine Sh.bind (Sh.reads fun _ => rfl) fun r _ => ?_
  cases r with
  | none => exact hp
  | some t => exact Sh.done _

theorem Sh.storeResult (name : String) (comps : Arr K) (m c : Id') (ix : List Int) (symbol : String) (t : Id') :
    Sh n (storeResult name comps m c ix symbol t) :=
  Sh.bind (Sh.newTensor _ _ _ _ _ _ _) fun _ _ => Sh.bind Sh.deletePass fun _ _ =>
    Sh.bind (Sh.delete _) fun _ _ => Sh.done _

theorem Sh.deleteEach (l : List Id') : Sh n (K := K) (l.forM deleteObj) := by
  induction l with
  | nil => exact Sh.done _
  | cons t l ih => exact Sh.bind (Sh.delete _) fun _ _ => ih

theorem Sh.storeCurve (kind : Kind) (name : String) (comps : Arr K) (m c : Id') (ix : List Int) (symbol : String)
    (l : List Id') (hk : kind ≠ .coordinates ∧ kind ≠ .metric := by decide) : Sh n (storeCurve kind name comps m c ix symbol l) :=
  Sh.bind (Sh.newTensor _ _ _ _ _ _ _ hk) fun _ _ => Sh.bind Sh.deletePass fun _ _ =>
    Sh.bind (Sh.deleteEach _) fun _ _ => Sh.done _

theorem Sh.unlessCurve {C : Curves K} {sel : Kind → Bool} {name : String} {c : Id'} {p : PyM K Id'} (hp : Sh n p) :
    Sh n (unlessCurve E C sel name c p) := by
  unfold PyOGRe.unlessCurve
  refine Sh.bind Sh.world fun w _ => ?_
  split
  · exact Sh.bind (Sh.getObj _) fun _ _ => Sh.bind (Sh.onlyIf (Sh.curveChangeCoords _ _)) fun _ _ => Sh.done _
  · exact hp

/-- One step after the other. -/
macro "shaping" : tactic => `(tactic| repeat' (first
  | with_reducible refine Sh.bind ?_ fun _ _ => ?_
  | with_reducible exact Sh.done _
  | with_reducible exact Sh.raise
  | with_reducible exact Sh.lift _
  | with_reducible exact Sh.getObj _
  | with_reducible exact Sh.getComponents _ _ _
  | with_reducible exact Sh.curveComponents _ _ _
  | with_reducible exact Sh.calcInit _ _
  | with_reducible exact Sh.productOf _ _ _ _
  | with_reducible exact Sh.partialOf _ _ _
  | with_reducible exact Sh.matmulTensors _ _
  | with_reducible exact Sh.calcAddObj _ _
  | with_reducible exact Sh.calcSub _ _
  | with_reducible exact Sh.calcMul _ _
  | with_reducible exact Sh.any (Sh.newTemp _ _ _ _ _)
  | with_reducible exact Sh.any (Sh.calcResult _ _ _ _)
  | with_reducible exact Sh.storeResult _ _ _ _ _ _ _
  | with_reducible exact Sh.storeCurve _ _ _ _ _ _ _ _
  | with_reducible exact Sh.requireMetric _
  | with_reducible exact Sh.requireTensor _
  | with_reducible exact Sh.requireCoords _
  | with_reducible assumption
  | with_reducible refine Sh.unlessNamed ?_
  | with_reducible refine Sh.unlessCurve ?_))


theorem Sh.calcRiemann (m : Id') : Sh n (calcRiemann E m) := by
  have h := Sh.calcChristoffel (n := n) (E := E) m
  unfold PyOGRe.calcRiemann computeRiemann
  shaping

theorem Sh.calcRicci (m : Id') : Sh n (calcRicci E m) := by
  have h := Sh.calcRiemann (n := n) (E := E) m
  unfold PyOGRe.calcRicci computeRicci
  shaping

theorem Sh.calcScalar (m : Id') : Sh n (calcScalar E m) := by
  have h := Sh.calcRicci (n := n) (E := E) m
  unfold PyOGRe.calcScalar computeScalar
  shaping

theorem Sh.calcEinstein (m : Id') : Sh n (calcEinstein E m) := by
  have h := Sh.calcRicci (n := n) (E := E) m
  have h' := Sh.calcScalar (n := n) (E := E) m
  unfold PyOGRe.calcEinstein computeEinstein
  shaping

theorem Sh.computeWeyl (m : Id') (k : Nat) (a r s : Id') : Sh n (computeWeyl E m k a r s) := by
  unfold PyOGRe.computeWeyl
  shaping

theorem Sh.calcWeyl (m : Id') : Sh n (calcWeyl E m) := by
  have h := Sh.calcRiemann (n := n) (E := E) m
  have h' := Sh.calcRicci (n := n) (E := E) m
  have h'' := Sh.calcScalar (n := n) (E := E) m
  have k := fun k a r s => Sh.computeWeyl (n := n) (E := E) m k a r s
  unfold PyOGRe.calcWeyl
  shaping
  exact k _ _ _ _

theorem Sh.calcNormSquared (t : Id') : Sh n (calcNormSquared E t) := by
  unfold PyOGRe.calcNormSquared
  shaping

theorem Sh.calcLagrangian {C : Curves K} (m : Id') (c : Option Id') : Sh n (calcLagrangian E C m c) := by
  unfold PyOGRe.calcLagrangian computeLagrangian
  shaping

theorem Sh.calcGeodesicLagrangian {C : Curves K} (m : Id') (c : Option Id') :
    Sh n (calcGeodesicLagrangian E C m c) := by
  have h := fun c => Sh.calcLagrangian (n := n) (E := E) (C := C) m c
  unfold PyOGRe.calcGeodesicLagrangian computeGeodesicLagrangian
  shaping
  exact h _

theorem Sh.calcGeodesicInactive {C : Curves K} (m : Id') (c : Option Id') :
    Sh n (calcGeodesicInactive E C m c) := by
  have h := fun c => Sh.calcLagrangian (n := n) (E := E) (C := C) m c
  unfold PyOGRe.calcGeodesicInactive computeGeodesicInactive
  shaping
  exact h _

theorem Sh.calcGeodesicChristoffel {C : Curves K} (m : Id') (c : Option Id') :
    Sh n (calcGeodesicChristoffel E C m c) := by
  have h := Sh.calcChristoffel (n := n) (E := E) m
  unfold PyOGRe.calcGeodesicChristoffel computeGeodesicChristoffel
  shaping

theorem Sh.computeGeodesicTime {C : Curves K} (m c : Id') : Sh n (computeGeodesicTime E C m c) := by
  have h := Sh.calcChristoffel (n := n) (E := E) m
  unfold PyOGRe.computeGeodesicTime
  shaping

theorem Sh.calcGeodesicTime {C : Curves K} (m : Id') (c : Option Id') :
    Sh n (calcGeodesicTime E C m c) := by
  have h := fun c => Sh.computeGeodesicTime (n := n) (E := E) (C := C) m c
  unfold PyOGRe.calcGeodesicTime
  shaping
  exact h _

theorem Sh.forEach {f : α → PyM K Unit} (l : List α) (h : ∀ a, Sh n (f a)) :
    Sh n (forEach f l) := by
  induction l with
  | nil => exact Sh.done _
  | cons a l ih => exact Sh.bind (h a) fun _ _ => ih

theorem Sh.mapEach {f : α → PyM K β} (l : List α) (h : ∀ a, Sh n (f a)) :
    Sh n (mapEach f l) := by
  induction l with
  | nil => exact Sh.done _
  | cons a l ih => exact Sh.bind (h a) fun _ _ => Sh.bind ih fun _ _ => Sh.done _

theorem Sh.firstNamed (name : Option String) : Sh n (K := K) (firstNamed name) :=
  Sh.reads fun _ => rfl

theorem Sh.resolve (r : Option Ref) : Sh n (K := K) (resolve r) := by
  unfold PyOGRe.resolve
  split
  · refine Sh.bind (Sh.firstNamed _) fun c _ => ?_
    cases c <;> exact Sh.done _
  · exact Sh.done _

theorem validCoordinates_indices {name : Arg String} {shape : Arg (List Nat)} {ix : IndicesArg} {symbol : Arg String}
    {b : Bool} {u : Unit} (h : validateCoordinates name shape ix symbol b = .ok u) : Signs (ix.getD 1) := by
  cases ix with
  | tuple l =>
    unfold validateCoordinates at h
    obtain ⟨-, -, h2⟩ := except_bind_ok h
    cases shape with
    | other => cases h2
    | val s =>
      dsimp only at h2
      split_ifs at h2 with h3
      all_goals
        rw [show (IndicesArg.tuple l).getD 1 = l from rfl, not_not.1 h3]
        intro x hx
        exact Or.inl (by simpa using hx)
  | _ => exact fun x hx => Or.inr (List.eq_of_mem_replicate hx)

theorem Sh.bindLift {x : Py α} {f : α → PyM K β} (h : ∀ a, x = .ok a → Sh n (f a)) : Sh n (PyM.lift x >>= f) := by
  cases x with
  | error e => exact Sh.reads fun _ => rfl
  | ok a => exact h a rfl

theorem Sh.newCoordinates (name : Arg String) (shape : Arg (List Nat)) (syms : List Sym) (ix : IndicesArg)
    (symbol : Arg String) : Sh n (K := K) (newCoordinates name shape syms ix symbol) := by
  unfold PyOGRe.newCoordinates
  exact Sh.bindLift fun _ h => Sh.register fun _ => ⟨rfl, rfl, rfl, validCoordinates_indices h⟩

theorem Sh.importCoordinates {I : Importer K} (x : Import K) (l : List (Ref × Val K)) :
    Sh n (importCoordinates I x l) := by
  unfold PyOGRe.importCoordinates
  exact Sh.bind (Sh.lift _) fun _ _ => Sh.bind (Sh.lift _) fun _ _ => Sh.bindLift fun _ h =>
    Sh.register fun _ => ⟨rfl, rfl, rfl, validCoordinates_indices h⟩

theorem Sh.importTensor (x : Import K) : Sh n (importTensor E x) := by
  unfold PyOGRe.importTensor
  refine Sh.ite Sh.raise ?_
  split
  · exact Sh.newMetric _ _ _ _ _
  · exact Sh.raise
  · rename_i h1 h2 h3 h4 h5 h6
    refine Sh.newTensor _ _ _ _ _ _ _ ⟨by assumption, fun hk => ?_⟩
    simp_all
  · exact Sh.raise

theorem Sh.importFromVal {I : Importer K} (v : Val K) : Sh n (importFromVal E I v) := by
  unfold PyOGRe.importFromVal
  refine Sh.bind Sh.world fun w0 _ => Sh.bind (Sh.lift _) fun l _ => ?_
  cases l with
  | nil => exact Sh.raise
  | cons x l =>
    dsimp only
    cases x.coords with
    | none => exact Sh.importCoordinates _ _
    | some r =>
      refine Sh.bind ?_ fun c _ => ?_
      · cases r with
        | obj i => exact Sh.done _
        | name s => exact Sh.firstNamed _
      · cases c with
        | none => exact Sh.raise
        | some c => exact Sh.importTensor _


theorem Sh.addCoordTransformation (t c : Id') (rules : Option (List (Option (Sym × K)))) :
    Sh n (addCoordTransformation t c rules) := by
  unfold PyOGRe.addCoordTransformation
  refine Sh.bind (Sh.isCoordinates _) fun b _ => Sh.ite Sh.raise (Sh.ite Sh.raise (Sh.bind (Sh.getObj _) fun o _ => ?_))
  have hlook : ∀ d : Dict Id' (List (Option (Sym × K))), Sh n (K := K) (PyOGRe.lookup d c) := fun d => Sh.reads (lookup_state d c)
  cases rules with
  | none => exact Sh.bind (hlook _) fun _ _ => Sh.change fun _ => ⟨rfl, rfl, rfl, rfl, rfl, rfl⟩
  | some l => exact Sh.change fun _ => ⟨rfl, rfl, rfl, rfl, rfl, rfl⟩

theorem Sh.importTrans {I : Importer K} (x : Import K) : Sh n (importTrans I x) := by
  unfold PyOGRe.importTrans
  refine Sh.bind Sh.world fun w _ => ?_
  cases x.name with
  | other => exact Sh.done _
  | val name =>
    refine Sh.forEach _ fun i => Sh.forEach _ fun p => Sh.bind ?_ fun c _ => ?_
    · cases p.1 with
      | obj i => exact Sh.done _
      | name s => exact Sh.firstNamed _
    · cases c with
      | none => exact Sh.raise
      | some c => exact Sh.bind (Sh.lift _) fun _ _ => Sh.addCoordTransformation _ _ _

theorem Sh.importAllFromVal {I : Importer K} (v : Val K) : Sh n (importAllFromVal E I v) := by
  unfold PyOGRe.importAllFromVal
  refine Sh.bind Sh.world fun w0 _ => Sh.bind (Sh.lift _) fun l _ => ?_
  refine Sh.bind (Sh.forEach _ fun x => Sh.bind (Sh.importCoordinates _ _) fun _ _ => Sh.done _) fun _ _ => ?_
  refine Sh.bind (Sh.mapEach _ fun x => Sh.bind (Sh.resolve _) fun _ _ => Sh.done _) fun l _ => ?_
  refine Sh.bind (Sh.forEach _ fun x => Sh.importTrans _) fun _ _ => Sh.bind (Sh.forEach _ fun x => ?_) fun _ _ => ?_
  · split
    · exact Sh.raise
    · exact Sh.done _
  refine Sh.bind (Sh.forEach _ fun x => Sh.bind (Sh.importTensor _) fun _ _ => Sh.done _) fun _ _ => ?_
  refine Sh.bind (Sh.mapEach _ fun x => Sh.bind (Sh.resolve _) fun m _ => ?_) fun l _ => ?_
  · split
    · exact Sh.raise
    · exact Sh.done _
  exact Sh.forEach _ fun x => Sh.bind (Sh.importTensor _) fun _ _ => Sh.done _

theorem Sh.simplifyTensor (i : Id') : Sh n (simplifyTensor E i) := by
  refine Sh.sd (P := fun _ _ => True) ?_ fun _ => Sd.simplifyTensor _
  unfold PyOGRe.simplifyTensor
  refine Steady.bind (Steady.getObj _) fun o => Steady.bind (Steady.getObj _) fun _ => Steady.bind ?_ fun _ => Steady.pure _
  generalize o.representations = l
  induction l with
  | nil => exact Steady.pure _
  | cons k l ih =>
    refine Steady.bind ?_ fun _ => ih
    unfold simplifyAt
    exact Steady.bind (Steady.readComps _ _ _) fun _ => Steady.bind (Steady.lift _) fun _ => Steady.writeComps _ _ _ _

/-- A call that returns to a state where all coordinate systems have `n` coordinates. -/
theorem call_fits (letters : List Sym) (k : Call K) (w : World K) (hd : AllDim n (k.run E letters w)) :
    AllDim n w ∧ (Fits n w → Fits n (k.run E letters w)) := by
  have key : ∀ {α : Type} {m : PyM K α}, Sh n m → AllDim n (m w).2 → AllDim n w ∧ (Fits n w → Fits n (m w).2) :=
    fun h hd => ⟨h.1 w hd, h.2 w hd⟩
  cases k with
  | coordinates name shape syms ix symbol => exact key (Sh.newCoordinates _ _ _ _ _) hd
  | transformation t c rules => exact key (Sh.addCoordTransformation _ _ _) hd
  | metric name comps c ix symbol => exact key (Sh.newMetric (E := E) name comps c ix symbol) hd
  | tensor name comps m c ix symbol => exact key (Sh.newTensor .tensor _ _ _ _ _ _) hd
  | get t c ix => exact key (Sh.bind (Sh.requireTensor t) fun _ _ => Sh.getComponents (E := E) t c ix) hd
  | setIndices t ix => exact key (Sh.bind (Sh.requireTensor t) fun _ _ => Sh.changeDefaultIndices (E := E) t ix) hd
  | setCoords t c => exact key (Sh.bind (Sh.requireTensor t) fun _ _ => Sh.changeDefaultCoords (E := E) t c) hd
  | rename t name => exact key (Sh.change (i := t) (u := fun o => { o with name := name }) fun _ => ⟨rfl, rfl, rfl, rfl, rfl, rfl⟩) hd
  | delete t => exact key (Sh.delete t) hd
  | deleteResults => exact key (Sh.times (Sh.passOf Sh.tryDelete) _) hd
  | clear => exact key Sh.clear hd
  | «calc» e name symbol ix => exact key (Sh.bind (Sh.eval letters e) fun _ _ => Sh.calcResult _ _ _ _) hd
  | compute f t =>
    cases f with
    | christoffel => exact key (Sh.calcChristoffel t) hd
    | riemann => exact key (Sh.calcRiemann t) hd
    | ricci => exact key (Sh.calcRicci t) hd
    | scalar => exact key (Sh.calcScalar t) hd
    | einstein => exact key (Sh.calcEinstein t) hd
    | weyl => exact key (Sh.calcWeyl t) hd
    | norm => exact key (Sh.bind (Sh.requireTensor t) fun _ _ => Sh.calcNormSquared (E := E) t) hd
  | curve C f m c =>
    cases f with
    | lagrangian => exact key (Sh.calcLagrangian m c) hd
    | fromLagrangian => exact key (Sh.calcGeodesicLagrangian m c) hd
    | inactive => exact key (Sh.calcGeodesicInactive m c) hd
    | fromChristoffel => exact key (Sh.calcGeodesicChristoffel m c) hd
    | withTime => exact key (Sh.calcGeodesicTime m c) hd
  | curveGet C l c ix => exact key (Sh.bind (Sh.requireTensor l) fun _ _ => Sh.curveComponents (E := E) (C := C) l c ix) hd
  | curveCoords C l c => exact key (Sh.bind (Sh.requireTensor l) fun _ _ => Sh.curveChangeCoords (E := E) (C := C) l c) hd
  | simplify t => exact key (Sh.bind (Sh.requireTensor t) fun _ _ => Sh.simplifyTensor (E := E) t) hd
  | setSymbol t symbol =>
    exact key (Sh.change (i := t) (u := fun o => { o with symbol := symbol }) fun _ => ⟨rfl, rfl, rfl, rfl, rfl, rfl⟩) hd
  | lineElement var m c =>
    exact key (Sh.bind (Sh.requireMetric m) fun _ _ => Sh.bind (Sh.lowerComponents (E := E) m c) fun _ _ =>
      Sh.bind (Sh.getObj _) fun _ _ => Sh.done _) hd
  | volumeElement m c =>
    exact key (Sh.bind (Sh.requireMetric m) fun _ _ => Sh.bind (Sh.lowerComponents (E := E) m c) fun _ _ => Sh.done _) hd
  | importOne I k text =>
    change AllDim n ((importFromString E I k text w).elim w (·.2)) at hd
    show AllDim n w ∧ (Fits n w → Fits n ((importFromString E I k text w).elim w (·.2)))
    unfold importFromString at hd ⊢
    split at hd
    · exact ⟨hd, id⟩
    · exact ⟨hd, id⟩
    · exact key (Sh.importFromVal _) hd
  | importAll I k text =>
    change AllDim n ((importAllFromString E I k text w).elim w (·.2)) at hd
    show AllDim n w ∧ (Fits n w → Fits n ((importAllFromString E I k text w).elim w (·.2)))
    have hc := Sh.clear (K := K) (n := n)
    have hc1 := hc.1 w
    have hc2 := hc.2 w
    unfold importAllFromString at hd ⊢
    rcases h : clearInstances w with ⟨r, w1⟩
    rw [h] at hd hc1 hc2
    cases r with
    | error e => exact ⟨hc1 hd, hc2 hd⟩
    | ok u =>
      dsimp only at hd hc1 hc2 ⊢
      split at hd
      · exact ⟨hd, id⟩
      · exact ⟨hc1 hd, hc2 hd⟩
      · have h3 := (Sh.importAllFromVal (n := n) (E := E) (I := I) _).1 w1 hd
        exact ⟨hc1 h3, fun hs => (Sh.importAllFromVal (n := n) (E := E) (I := I) _).2 w1 hd (hc2 h3 hs)⟩

theorem history_fits (letters : List Sym) (ks : List (Call K)) : ∀ w : World K, AllDim n (history E letters ks w) →
    AllDim n w ∧ (Fits n w → Fits n (history E letters ks w)) := by
  induction ks with
  | nil => exact fun w hd => ⟨hd, id⟩
  | cons k ks ih =>
    intro w hd
    obtain ⟨h1, h2⟩ := ih _ hd
    obtain ⟨h3, h4⟩ := call_fits letters k w h1
    exact ⟨h3, fun hs => h2 (h4 hs)⟩

end

end PyOGRe
