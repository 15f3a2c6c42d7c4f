import Verif.Spec.Calc
import Verif.Model.Covariant

/-!
# Nested tensor formulae and what they mean

`Formula.run` evaluates a formula the way Python does, operands from left to right; `Formula.mean` is what it
means: the labels, their positions in the default configuration, and the value at every assignment of
positions and values to the labels.
-/

namespace PyOGRe.Spec
open Finset
variable {K : Type}

/-- Formulae of labelled tensors. -/
inductive Formula (K : Type)
  /-- `t("labels")` -/
  | tensor (t : Id') (labels : List Sym)
  /-- `v * f` -/
  | scale (v : K) (f : Formula K)
  /-- `-f` -/
  | neg (f : Formula K)
  /-- `f + g` -/
  | add (f g : Formula K)
  /-- `f - g` -/
  | sub (f g : Formula K)
  /-- `f @ g` -/
  | mul (f g : Formula K)
  /-- `PartialD("a") @ f` -/
  | diff (a : Sym) (f : Formula K)

/-- Evaluation in Python, operands from left to right, with the operations `mul` for `x @ y` and `diff` for
`PartialD("a") @ x`. -/
def Formula.runWith [CommRing K] [DecidableEq K] (E : Engine K) (mul : CalcObj → CalcObj → PyM K CalcObj)
    (diff : Sym → CalcObj → PyM K CalcObj) : Formula K → PyM K CalcObj
  | .tensor t labels => calcInit E t labels
  | .scale v f => do
    let x ← f.runWith E mul diff
    calcMul E x (.num v)
  | .neg f => do
    let x ← f.runWith E mul diff
    calcNeg E x
  | .add f g => do
    let x ← f.runWith E mul diff
    let y ← g.runWith E mul diff
    calcAddObj E x y
  | .sub f g => do
    let x ← f.runWith E mul diff
    let y ← g.runWith E mul diff
    calcSub E x (.obj y)
  | .mul f g => do
    let x ← f.runWith E mul diff
    let y ← g.runWith E mul diff
    mul x y
  | .diff a f => do
    let x ← f.runWith E mul diff
    diff a x

/-- Evaluation with the operators of the library. -/
def Formula.eval [CommRing K] [DecidableEq K] [Algebra ℚ K] (E : Engine K) (letters : List Sym) (f : Formula K) :
    PyM K CalcObj :=
  f.runWith E (calcMatmul E letters) fun a x => do
    let d ← PyM.lift (derivative .partialD [a])
    calcMatmul E letters d x

/-- Evaluation with the products of tensors and the partial derivatives, as in the functions that compute
curvatures. -/
def Formula.run [CommRing K] [DecidableEq K] (E : Engine K) (f : Formula K) : PyM K CalcObj :=
  f.runWith E (matmulTensors E) fun a x => matmulPartial E [a] x (freeLabels [a] x.labels)

/-- The meaning of a formula. -/
structure Meaning (K : Type) where
  labels : List Sym
  ix : List Int
  value : (Sym → Int) → (Sym → Nat) → K

/-- The components in the default configuration. -/
def Meaning.comps (M : Meaning K) (J : List Nat) : K :=
  M.value (posOf M.labels M.ix) fun s => J.getD (M.labels.idxOf s) 0

/-- The configuration in which the first occurrence of a repeated label is upper and the second one lower. -/
def traceConfig (labels : List Sym) (pos : Sym → Int) : List Int :=
  labels.zipIdx.map fun p => if labels.count p.1 = 1 then pos p.1 else if labels.idxOf p.1 = p.2 then 1 else -1

example : traceConfig ["a", "b", "a"] (fun _ => 1) = [1, 1, -1] := by decide

/-- The labelled tensor with given components. -/
def Meaning.ofComps [CommRing K] (G : Ground K) (labels : List Sym) (ix : List Int) (f : List Nat → K) : Meaning K :=
  ⟨labels, ix, fun pos ρ => TField.at G ⟨"", G.c, ix, f⟩ labels pos ρ⟩

/-- Traces. -/
def Meaning.trace [CommRing K] (G : Ground K) (D : TField K) (labels : List Sym) : Meaning K where
  labels := single labels
  ix := ((labels.zip D.ix).filter fun p => decide (labels.count p.1 = 1)).map (·.2)
  value pos ρ := sumOver G.n (repeated labels) (fun ρ' => D.comp G (traceConfig labels pos) (labels.map ρ')) ρ

/-- Products, with the shared labels summed over. -/
def Meaning.mul [CommRing K] (G : Ground K) (x y : Meaning K) : Meaning K where
  labels := (x.labels.filter fun s => decide (s ∉ y.labels)) ++ (y.labels.filter fun s => decide (s ∉ x.labels))
  ix := (x.labels.filter fun s => decide (s ∉ y.labels)).map (posOf x.labels x.ix) ++
    (y.labels.filter fun s => decide (s ∉ x.labels)).map (posOf y.labels y.ix)
  value := contracted G (sharedOf x.labels y.labels) x.value y.value

/-- Derivatives: with a label that `x` does not have, and with one that it has (then its index is upper and
summed over). -/
def Meaning.diff [CommRing K] (E : Engine K) (G : Ground K) (a : Sym) (x : Meaning K) : Meaning K :=
  if a ∈ x.labels then
    let rest := x.labels.filter fun s => decide (s ≠ a)
    .ofComps G rest (rest.map (posOf x.labels x.ix)) fun J => ∑ k ∈ range G.n, E.diff (G.syms.getD k "")
      (x.value (Function.update (posOf x.labels x.ix) a 1)
        (Function.update (fun s => J.getD (rest.idxOf s) 0) a k))
  else .ofComps G (a :: x.labels) (-1 :: x.ix) fun J => E.diff (G.syms.getD (J.headD 0) "") (x.comps J.tail)

/-- The meaning of a formula about the tensors `F`. -/
def Formula.mean [CommRing K] (E : Engine K) (G : Ground K) (F : Id' → TField K) : Formula K → Meaning K
  | .tensor t labels => .trace G (F t) labels
  | .scale v f => ⟨(f.mean E G F).labels, (f.mean E G F).ix, fun pos ρ => v * (f.mean E G F).value pos ρ⟩
  | .neg f => ⟨(f.mean E G F).labels, (f.mean E G F).ix, fun pos ρ => -(f.mean E G F).value pos ρ⟩
  | .add f g => ⟨(f.mean E G F).labels, (f.mean E G F).ix,
      fun pos ρ => (f.mean E G F).value pos ρ + (g.mean E G F).value pos ρ⟩
  | .sub f g => ⟨(f.mean E G F).labels, (f.mean E G F).ix,
      fun pos ρ => (f.mean E G F).value pos ρ - (g.mean E G F).value pos ρ⟩
  | .mul f g => .mul G (f.mean E G F) (g.mean E G F)
  | .diff a f => .diff E G a (f.mean E G F)

/-- The labels of a formula. -/
def Formula.labels : Formula K → List Sym
  | .tensor _ labels => single labels
  | .scale _ f => f.labels
  | .neg f => f.labels
  | .add f _ => f.labels
  | .sub f _ => f.labels
  | .mul f g => (f.labels.filter fun s => decide (s ∉ g.labels)) ++ (g.labels.filter fun s => decide (s ∉ f.labels))
  | .diff a f => if a ∈ f.labels then f.labels.filter fun s => decide (s ≠ a) else a :: f.labels

/-- The formula makes sense: its tensors `F` are in view and have as many labels as indices, no label occurs
more than twice in a tensor (and if one does, the default coordinates of the metric are those of the ground), only tensors with the same labels are added, and derivatives are contracted
only with the first or second label. -/
def Formula.OK (G : Ground K) (V : View K) (F : Id' → TField K) : Formula K → Prop
  | .tensor t labels => V t = some (F t) ∧ (F t).coords = G.c ∧ labels.length = (F t).ix.length ∧
      (∀ s, labels.count s ≤ 2) ∧ (labels.Nodup ∨ V G.m = some (F G.m) ∧ (F G.m).coords = G.c)
  | .scale _ f => f.OK G V F
  | .neg f => f.OK G V F
  | .add f g => f.OK G V F ∧ g.OK G V F ∧ g.labels.Perm f.labels
  | .sub f g => f.OK G V F ∧ g.OK G V F ∧ g.labels.Perm f.labels
  | .mul f g => f.OK G V F ∧ g.OK G V F
  | .diff a f => f.OK G V F ∧ (a ∈ f.labels → f.labels.idxOf a ≤ 1)

/-- The number of temporary tensors: one for every label that is repeated in a tensor and one for every
operation, but two for a difference. -/
def Formula.temps : Formula K → Nat
  | .tensor _ labels => (labels.length - (single labels).length) / 2
  | .scale _ f => f.temps + 1
  | .neg f => f.temps + 1
  | .add f g => f.temps + g.temps + 1
  | .sub f g => f.temps + g.temps + 2
  | .mul f g => f.temps + g.temps + 1
  | .diff _ f => f.temps + 1

/-- The formula with other labels. -/
def Formula.rename (σ : Sym → Sym) : Formula K → Formula K
  | .tensor t labels => .tensor t (labels.map σ)
  | .scale v f => .scale v (f.rename σ)
  | .neg f => .neg (f.rename σ)
  | .add f g => .add (f.rename σ) (g.rename σ)
  | .sub f g => .sub (f.rename σ) (g.rename σ)
  | .mul f g => .mul (f.rename σ) (g.rename σ)
  | .diff a f => .diff (σ a) (f.rename σ)

/-- Two formulae that differ only in summed labels: anywhere in the formula, labels are replaced one-to-one
by others in a part of it, and the labels of this part stay the same. -/
inductive Renamed : Formula K → Formula K → Prop
  | refl (f : Formula K) : Renamed f f
  | dummies (f : Formula K) (σ : Sym → Sym) (hσ : Function.Injective σ) (hf : ∀ s ∈ f.labels, σ s = s) :
      Renamed f (f.rename σ)
  | trans {f g h : Formula K} : Renamed f g → Renamed g h → Renamed f h
  | scale (v : K) {f f' : Formula K} : Renamed f f' → Renamed (.scale v f) (.scale v f')
  | neg {f f' : Formula K} : Renamed f f' → Renamed (.neg f) (.neg f')
  | add {f f' g g' : Formula K} : Renamed f f' → Renamed g g' → Renamed (.add f g) (.add f' g')
  | sub {f f' g g' : Formula K} : Renamed f f' → Renamed g g' → Renamed (.sub f g) (.sub f' g')
  | mul {f f' g g' : Formula K} : Renamed f f' → Renamed g g' → Renamed (.mul f g) (.mul f' g')
  | diff (a : Sym) {f f' : Formula K} : Renamed f f' → Renamed (.diff a f) (.diff a f')

end PyOGRe.Spec
