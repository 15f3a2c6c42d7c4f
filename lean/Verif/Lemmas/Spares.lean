import Verif.Lemmas.Registry

/-! Helper lemmas: formulae spare all objects that are not called `TEMP`. -/

namespace PyOGRe
open Spec
variable {K : Type} [CommRing K] {E : Engine K} {n : Nat}

theorem Sp.tensorOf (x : CalcObj) : Sp n (K := K) (PyOGRe.tensorOf x) fun _ => True := by
  unfold PyOGRe.tensorOf
  cases x.tensor with
  | none => exact Sp.raise
  | some t => exact Sp.bind (Sp.getObj _) fun _ _ => Sp.done _

theorem Sp.metricAttr (x : CalcObj) : Sp n (K := K) (PyOGRe.metricAttr x) fun _ => True := Sp.steady fun w => Frame.refl w

theorem Sp.getComponents (t : Id') (c : Option Id') (ix : Option (List Int)) :
    Sp n (PyOGRe.getComponents E t c ix) fun _ => True := Sp.steady (getComponents_steady _ _ _)

theorem Sp.readComps (t c : Id') (ix : List Int) : Sp n (K := K) (PyOGRe.readComps t c ix) fun _ => True :=
  Sp.steady (Steady.readComps _ _ _)

theorem Sp.defaultComps (t : Id') : Sp n (K := K) (PyOGRe.defaultComps t) fun _ => True := by
  unfold PyOGRe.defaultComps
  exact Sp.bind (Sp.getObj _) fun _ _ => Sp.readComps _ _ _

theorem Sp.newTemp (a : Arr K) (m c : Id') (ix : List Int) (s : String) : Sp n (PyOGRe.newTemp a m c ix s) fun i => n ≤ i :=
  Sp.newTensor _ _ _ _ _ _ _

theorem Sp.traceStep (s : Sym) (t : Id') (labels : List Sym) : Sp n (traceStep E s t labels) fun _ => True := by
  unfold PyOGRe.traceStep
  dsimp only
  exact Sp.ite Sp.raise (Sp.ite (Sp.bind (Sp.getObj _) fun _ _ => Sp.bind (Sp.lift _) fun _ _ =>
    Sp.bind (Sp.lift _) fun _ _ => Sp.bind (Sp.getComponents _ _ _) fun _ _ => Sp.bind (Sp.getComponents _ _ _) fun _ _ =>
    Sp.bind (Sp.lift _) fun _ _ => Sp.bind (Sp.getObj _) fun _ _ => Sp.bind (Sp.newTemp _ _ _ _ _) fun _ _ => Sp.done _)
    (Sp.done _))

theorem Sp.traceLoop (ls : List Sym) : ∀ (t : Id') (labels : List Sym), Sp n (traceLoop E ls t labels) fun _ => True := by
  induction ls with
  | nil => exact fun t labels => Sp.done _
  | cons s ls ih => exact fun t labels => Sp.bind (Sp.traceStep _ _ _) fun r _ => ih _ _

theorem Sp.calcInit (t : Id') (labels : List Sym) : Sp n (calcInit E t labels) fun _ => True := by
  unfold PyOGRe.calcInit
  refine Sp.bind (P := fun _ => True) (Sp.steady fun w => ?_) fun _ _ => ?_
  · unfold requireTensor
    split_ifs <;> exact Frame.refl w
  exact Sp.bind (Sp.getObj _) fun _ _ => Sp.bind (Sp.getComponents _ _ _) fun _ _ => Sp.bind (Sp.lift _) fun _ _ =>
    Sp.bind (Sp.traceLoop _ _ _) fun _ _ => Sp.done _

theorem Sp.calcAddObj (x y : CalcObj) : Sp n (calcAddObj E x y) fun _ => True := by
  unfold PyOGRe.calcAddObj
  refine Sp.ite Sp.raise (Sp.bind (Sp.metricAttr _) fun _ _ => Sp.bind (Sp.metricAttr _) fun _ _ => Sp.ite Sp.raise
    (Sp.bind (Sp.tensorOf _) ?_))
  rintro ⟨tx, ox⟩ -
  refine Sp.bind (Sp.tensorOf _) ?_
  rintro ⟨ty, oy⟩ -
  exact Sp.ite Sp.raise (Sp.ite Sp.raise (Sp.bind (Sp.getComponents _ _ _) fun _ _ => Sp.bind (Sp.lift _) fun _ _ =>
    Sp.bind (Sp.lift _) fun _ _ => Sp.bind (Sp.lift _) fun _ _ => Sp.bind (Sp.getComponents _ _ _) fun _ _ =>
    Sp.bind (Sp.lift _) fun _ _ => Sp.bind (Sp.lift _) fun _ _ => Sp.bind (Sp.newTemp _ _ _ _ _) fun _ _ =>
    Sp.calcInit _ _))

theorem Sp.requireArray (x : CalcObj) : Sp n (K := K) (PyOGRe.requireArray x) fun _ => True :=
  Sp.steady fun w => by rw [requireArray_state]; exact Frame.refl w

theorem Sp.calcNeg (x : CalcObj) : Sp n (calcNeg E x) fun _ => True := by
  unfold PyOGRe.calcNeg
  refine Sp.bind (Sp.requireArray x) fun _ _ => Sp.ite Sp.raise (Sp.bind (Sp.tensorOf _) ?_)
  rintro ⟨tx, ox⟩ -
  exact Sp.bind (Sp.defaultComps _) fun _ _ => Sp.bind (Sp.newTemp _ _ _ _ _) fun _ _ => Sp.calcInit _ _

theorem Sp.scaleBy (s t : Id') (l : List Sym) : Sp n (scaleBy E s t l) fun _ => True := by
  unfold PyOGRe.scaleBy
  exact Sp.bind (Sp.getObj _) fun _ _ => Sp.bind (Sp.getComponents _ _ _) fun _ _ => Sp.bind (Sp.readComps _ _ _) fun _ _ =>
    Sp.done _

theorem Sp.mulParts (tx ty : Id') (ox oy : Obj K) (lx ly : List Sym) :
    Sp n (mulParts E tx ty ox oy lx ly) fun _ => True := by
  unfold PyOGRe.mulParts
  refine Sp.ite (Sp.ite (Sp.bind (Sp.scaleBy _ _ _) fun _ _ => Sp.scaleBy _ _ _) (Sp.scaleBy _ _ _)) (Sp.scaleBy _ _ _)

theorem Sp.calcMul (x : CalcObj) (y : CalcArg K) : Sp n (calcMul E x y) fun _ => True := by
  cases y with
  | other => exact Sp.ite Sp.raise Sp.raise
  | num v =>
    unfold PyOGRe.calcMul
    refine Sp.ite Sp.raise (Sp.bind (Sp.tensorOf _) ?_)
    rintro ⟨tx, ox⟩ -
    exact Sp.bind (Sp.defaultComps _) fun _ _ => Sp.bind (Sp.newTemp _ _ _ _ _) fun _ _ => Sp.calcInit _ _
  | obj y =>
    unfold PyOGRe.calcMul
    refine Sp.ite Sp.raise (Sp.bind (Sp.tensorOf _) ?_)
    rintro ⟨ty, oy⟩ -
    refine Sp.bind (Sp.tensorOf _) ?_
    rintro ⟨tx, ox⟩ -
    exact Sp.ite Sp.raise (Sp.bind (Sp.mulParts _ _ _ _ _ _) fun _ _ => Sp.bind (Sp.newTemp _ _ _ _ _) fun _ _ =>
      Sp.calcInit _ _)

theorem Sp.matmulTensors (x y : CalcObj) : Sp n (matmulTensors E x y) fun _ => True := by
  unfold PyOGRe.matmulTensors
  refine Sp.bind (Sp.metricAttr _) fun _ _ => Sp.bind (Sp.metricAttr _) fun _ _ => Sp.ite Sp.raise
    (Sp.bind (Sp.tensorOf _) ?_)
  rintro ⟨tx, ox⟩ -
  refine Sp.bind (Sp.tensorOf _) ?_
  rintro ⟨ty, oy⟩ -
  exact Sp.ite (Sp.calcMul _ _) (Sp.bind (Sp.getComponents _ _ _) fun _ _ => Sp.bind (Sp.lift _) fun _ _ =>
    Sp.bind (Sp.getComponents _ _ _) fun _ _ => Sp.bind (Sp.lift _) fun _ _ => Sp.bind (Sp.lift _) fun _ _ =>
    Sp.bind (Sp.newTemp _ _ _ _ _) fun _ _ => Sp.calcInit _ _)

theorem Sp.matmulPartial (d : List Sym) (y : CalcObj) (l : List Sym) : Sp n (matmulPartial E d y l) fun _ => True := by
  unfold PyOGRe.matmulPartial
  refine Sp.bind (Sp.tensorOf _) ?_
  rintro ⟨ty, oy⟩ -
  exact Sp.bind (Sp.lift _) fun _ _ => Sp.bind (Sp.lift _) fun _ _ => Sp.bind (Sp.getComponents _ _ _) fun _ _ =>
    Sp.bind (Sp.getObj _) fun _ _ => Sp.bind (Sp.lift _) fun _ _ => Sp.bind (Sp.newTemp _ _ _ _ _) fun _ _ =>
    Sp.calcInit _ _

theorem Sp.deletePasses : Sp n (K := K) (timesDo (PyOGRe.deletePass (hasName "TEMP") deleteObj) 2) fun _ => True :=
  Sp.bind Sp.deletePass fun _ _ => Sp.bind Sp.deletePass fun _ _ => Sp.done _

theorem Sp.calcResult (x : CalcObj) (name symbol : String) (ix : List Sym) :
    Sp n (calcResult E x name symbol ix) fun t => n ≤ t := by
  unfold PyOGRe.calcResult
  refine Sp.ite Sp.raise (Sp.bind (Sp.lift _) fun _ _ => Sp.bind (Sp.tensorOf _) ?_)
  rintro ⟨tx, ox⟩ -
  exact Sp.bind (Sp.lift _) fun _ _ => Sp.bind (Sp.getComponents _ _ _) fun _ _ => Sp.bind (Sp.lift _) fun _ _ =>
    Sp.bind (Sp.newTensor _ _ _ _ _ _ _) fun t ht => Sp.bind Sp.deletePasses fun _ _ => Sp.pure ht

variable [DecidableEq K]

theorem Sp.calcAdd (x : CalcObj) (y : CalcArg K) : Sp n (calcAdd E x y) fun _ => True := by
  cases y with
  | other => exact Sp.raise
  | num v => exact Sp.ite (Sp.done _) Sp.raise
  | obj y => exact Sp.calcAddObj _ _

theorem Sp.calcSub (x : CalcObj) (y : CalcArg K) : Sp n (calcSub E x y) fun _ => True := by
  cases y with
  | other => exact Sp.raise
  | num v => exact Sp.ite (Sp.done _) Sp.raise
  | obj y =>
    unfold PyOGRe.calcSub
    refine Sp.ite Sp.raise (Sp.bind (Sp.tensorOf _) ?_)
    rintro ⟨tx, ox⟩ -
    refine Sp.bind (Sp.tensorOf _) ?_
    rintro ⟨ty, oy⟩ -
    exact Sp.ite Sp.raise (Sp.ite Sp.raise (Sp.bind (Sp.calcNeg _) fun _ _ => Sp.calcAddObj _ _))

theorem Sp.copyAs (t : Id') (name : String) : Sp n (K := K) (copyAs t name) fun i => n ≤ i := by
  unfold PyOGRe.copyAs
  refine Sp.bind (Sp.getObj _) fun o _ => ?_
  intro w hw
  refine ⟨⟨by simp, fun i hi oi hoi => ?_⟩, fun hs => ⟨hs.nodup, fun i hi => ?_⟩, fun a ha => ?_⟩
  · exact ⟨oi, getElem?_append_old hoi, rfl, fun _ => ⟨rfl, Iff.rfl⟩⟩
  · obtain ⟨oi, h1, h2⟩ := hs.inUse i hi
    exact ⟨oi, getElem?_append_old h1, h2⟩
  · cases ha; exact hw

theorem Sp.changeDefaultIndices {i : Id'} (hi : n ≤ i) (ix : List Int) :
    Sp n (changeDefaultIndices E i ix) fun _ => True := by
  unfold PyOGRe.changeDefaultIndices
  exact Sp.bind (Sp.getObj _) fun _ _ => Sp.bind (Sp.lift _) fun _ _ =>
    Sp.bind (Sp.steady (checkRepresentation_steady _ _ _)) fun _ _ => Sp.onlyIf (Sp.modify hi fun _ => rfl)

variable [Algebra ℚ K]

theorem Sp.calcChristoffel (m : Id') : Sp n (calcChristoffel E m) fun _ => True := by
  unfold PyOGRe.calcChristoffel requireMetric
  refine Sp.bind (P := fun _ => True) ?_ fun _ _ => Sp.bind (Sp.getObj _) fun om _ =>
    Sp.bind (P := fun _ => True) (Sp.steady fun w => Frame.refl w) fun r _ => ?_
  · exact Sp.bind (Sp.isMetric _) fun _ _ => Sp.ite Sp.raise (Sp.done _)
  cases r with
  | some t => exact Sp.done _
  | none =>
    dsimp only
    unfold computeChristoffel
    refine Sp.bind (Sp.getObj _) fun _ _ => Sp.bind (Sp.copyAs _ _) fun i hi =>
      Sp.bind (Sp.changeDefaultIndices hi _) fun _ _ => Sp.bind (Sp.modify hi fun _ => rfl) fun _ _ =>
      Sp.bind (Sp.calcInit _ _) fun _ _ => Sp.bind (Sp.calcMul _ _) fun _ _ => Sp.bind (Sp.calcInit _ _) fun _ _ =>
      Sp.bind (Sp.matmulPartial _ _ _) fun _ _ => Sp.bind (Sp.calcInit _ _) fun _ _ =>
      Sp.bind (Sp.matmulPartial _ _ _) fun _ _ => Sp.bind (Sp.calcAddObj _ _) fun _ _ => Sp.bind (Sp.calcInit _ _) fun _ _ =>
      Sp.bind (Sp.matmulPartial _ _ _) fun _ _ => Sp.bind (Sp.calcSub _ _) fun _ _ =>
      Sp.bind (Sp.matmulTensors _ _) fun _ _ => Sp.bind (Sp.calcResult _ _ _ _) fun t ht =>
      Sp.bind (Sp.getComponents _ _ _) fun _ _ => Sp.bind (Sp.getObj _) fun _ _ =>
      Sp.bind (Sp.newTensor _ _ _ _ _ _ _) fun _ _ => Sp.bind Sp.deletePass fun _ _ =>
      Sp.bind (Sp.delete ht) fun _ _ => Sp.done _

theorem Sp.covariantTerms (c t : Id') (ls : List (List Sym × List Sym)) :
    Sp n (covariantTerms E c t ls) fun _ => True := by
  induction ls with
  | nil => exact Sp.done _
  | cons l ls ih =>
    unfold PyOGRe.covariantTerms covariantTerm
    exact Sp.bind (Sp.bind (Sp.calcInit _ _) fun _ _ => Sp.bind (Sp.calcInit _ _) fun _ _ => Sp.matmulTensors _ _)
      fun _ _ => Sp.bind ih fun _ _ => Sp.done _

theorem Sp.sumCalc (l : List CalcObj) : Sp n (sumCalc E l) fun _ => True := by
  have h : ∀ (l : List CalcObj) x, Sp n (addAll E x l) fun _ => True := by
    intro l
    induction l with
    | nil => exact fun x => Sp.done _
    | cons y l ih => exact fun x => Sp.bind (Sp.calcAddObj _ _) fun _ _ => ih _
  cases l with
  | nil => exact Sp.done _
  | cons x l => exact Sp.bind (Sp.calcAdd _ _) fun _ _ => Sp.bind (h _ _) fun _ _ => Sp.done _

theorem Sp.matmulCovariant (letters d : List Sym) (y : CalcObj) (ps : List Sym → Py Sym) (l l' : List Sym) :
    Sp n (matmulCovariant E letters d y ps l l') fun _ => True := by
  unfold PyOGRe.matmulCovariant
  refine Sp.bind (Sp.tensorOf _) ?_
  rintro ⟨_, oy⟩ -
  refine Sp.bind (Sp.calcChristoffel _) fun _ _ => Sp.bind (Sp.lift _) fun _ _ => Sp.bind (Sp.lift _) fun _ _ =>
    Sp.bind (Sp.tensorOf _) ?_
  rintro ⟨ty, oy'⟩ -
  refine Sp.bind (Sp.matmulPartial _ _ _) fun _ _ => Sp.bind (Sp.covariantTerms _ _ _) fun _ _ =>
    Sp.bind (Sp.sumCalc _) fun _ _ => Sp.bind (Sp.calcAdd _ _) fun _ _ => Sp.bind (Sp.covariantTerms _ _ _) fun _ _ =>
    Sp.bind (Sp.sumCalc _) fun _ _ => Sp.bind (Sp.calcSub _ _) fun _ _ => Sp.bind (Sp.tensorOf _) ?_
  rintro ⟨tx, _⟩ -
  refine Sp.bind (Sp.calcInit _ _) fun _ _ => Sp.bind (Sp.calcResult _ _ _ _) fun r hr =>
    Sp.bind (Sp.getComponents _ _ _) fun _ _ => Sp.bind (Sp.tensorOf _) ?_
  rintro ⟨_, oy''⟩ -
  exact Sp.bind (Sp.delete hr) fun _ _ => Sp.bind (Sp.newTemp _ _ _ _ _) fun _ _ => Sp.calcInit _ _

theorem Sp.calcMatmul (letters : List Sym) (x y : CalcObj) : Sp n (calcMatmul E letters x y) fun _ => True := by
  unfold PyOGRe.calcMatmul
  rcases x with ⟨rx, tx, lx⟩
  rcases y with ⟨ry, ty, ly⟩
  cases rx <;> cases ry <;> first
    | exact Sp.matmulTensors _ _
    | exact Sp.matmulPartial _ _ _
    | exact Sp.matmulCovariant _ _ _ _ _ _
    | exact Sp.raise

theorem Sp.eval (letters : List Sym) (e : Expr K) : Sp n (e.eval E letters) fun _ => True := by
  induction e with
  | tensor t l => exact Sp.calcInit _ _
  | scale v e ih => exact Sp.bind ih fun _ _ => Sp.calcMul _ _
  | times e f ih ih' => exact Sp.bind ih fun _ _ => Sp.bind ih' fun _ _ => Sp.calcMul _ _
  | neg e ih => exact Sp.bind ih fun _ _ => Sp.calcNeg _
  | add e f ih ih' => exact Sp.bind ih fun _ _ => Sp.bind ih' fun _ _ => Sp.calcAddObj _ _
  | sub e f ih ih' => exact Sp.bind ih fun _ _ => Sp.bind ih' fun _ _ => Sp.calcSub _ _
  | mul e f ih ih' => exact Sp.bind ih fun _ _ => Sp.bind ih' fun _ _ => Sp.calcMatmul _ _ _
  | derivative r l => exact Sp.lift _

end PyOGRe
