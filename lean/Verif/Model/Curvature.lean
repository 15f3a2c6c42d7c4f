import Verif.Model.Covariant

/-!
# Curvature

`CalcRiemannTensor`, `CalcRicciTensor`, `CalcRicciScalar`, `CalcEinsteinTensor`, `CalcWeylTensor` and
`CalcNormSquared` of `Calc.py`.  `A - B` and `A + B` of formulae are `calcSub` and `calcAddObj`, `A @ B`
of two tensors is `matmulTensors`.
-/

namespace PyOGRe
variable {K : Type} [CommRing K] [DecidableEq K] [Algebra ℚ K]

/-- `for instance in metric._instances: if instance._name == name: return instance`, and otherwise the
computation. -/
def unlessNamed (name : String) (m : PyM K Id') : PyM K Id' := do
  match ← findByName name with
  | some t => return t
  | none => m

/-- The end of these functions: the result is stored as a new tensor, temporary tensors and the tensor `t`
are deleted. -/
def storeResult (name : String) (comps : Arr K) (metric coords : Id') (ix : List Int) (symbol : String) (t : Id') :
    PyM K Id' := do
  let r ← newTensor .tensor (.val name) (.val comps) metric coords (.tuple ix) (.val symbol)
  deleteTemps
  deleteObj t
  return r

/-- `PartialD(d) @ tensor(labels)`. -/
def partialOf (E : Engine K) (d : Sym) (t : Id') (labels : List Sym) : PyM K CalcObj := do
  let x ← calcInit E t labels
  matmulPartial E [d] x (freeLabels [d] x.labels)

/-- `a(la) @ b(lb)`. -/
def productOf (E : Engine K) (a : Id') (la : List Sym) (b : Id') (lb : List Sym) : PyM K CalcObj := do
  let x ← calcInit E a la
  let y ← calcInit E b lb
  matmulTensors E x y

/-- `Calc.py:1100-1126`: the computation in `CalcRiemannTensor`. -/
def computeRiemann (E : Engine K) (m c : Id') : PyM K Id' := do
  let a ← partialOf E "mu" c ["rho", "nu", "sigma"]
  let b ← partialOf E "nu" c ["rho", "mu", "sigma"]
  let s ← calcSub E a (.obj b)
  let p ← productOf E c ["rho", "mu", "lambda"] c ["lambda", "nu", "sigma"]
  let s ← calcAddObj E s p
  let p ← productOf E c ["rho", "nu", "lambda"] c ["lambda", "mu", "sigma"]
  let s ← calcSub E s (.obj p)
  let t ← calcResult E s "Result" "" ["rho", "sigma", "mu", "nu"]
  let comps ← getComponents E t none (some [1, -1, -1, -1])
  let om ← getObj m
  storeResult (om.name ++ " Riemann") comps m om.coords [1, -1, -1, -1] "R" t

/-- `Calc.py:1079-1126` `CalcRiemannTensor`. -/
def calcRiemann (E : Engine K) (m : Id') : PyM K Id' := do
  requireMetric m
  let om ← getObj m
  unlessNamed (om.name ++ " Riemann") do
    let c ← calcChristoffel E m
    computeRiemann E m c

/-- `Calc.py:1149-1172`: the computation in `CalcRicciTensor`. -/
def computeRicci (E : Engine K) (m r : Id') : PyM K Id' := do
  let x ← calcInit E r ["lambda", "mu", "lambda", "nu"]
  let t ← calcResult E x "Result" "" []
  let comps ← getComponents E t none (some [-1, -1])
  let om ← getObj m
  storeResult (om.name ++ " Ricci Tensor") comps m om.coords [-1, -1] "R" t

/-- `Calc.py:1129-1172` `CalcRicciTensor`. -/
def calcRicci (E : Engine K) (m : Id') : PyM K Id' := do
  requireMetric m
  let om ← getObj m
  unlessNamed (om.name ++ " Ricci Tensor") do
    let r ← calcRiemann E m
    computeRicci E m r

/-- `Calc.py:1259-1282`: the computation in `CalcRicciScalar`. -/
def computeScalar (E : Engine K) (m r : Id') : PyM K Id' := do
  let x ← calcInit E r ["lambda", "lambda"]
  let t ← calcResult E x "Result" "" []
  let comps ← getComponents E t none none
  let om ← getObj m
  storeResult (om.name ++ " Ricci Scalar") comps m om.coords [] "R" t

/-- `Calc.py:1239-1282` `CalcRicciScalar`. -/
def calcScalar (E : Engine K) (m : Id') : PyM K Id' := do
  requireMetric m
  let om ← getObj m
  unlessNamed (om.name ++ " Ricci Scalar") do
    let r ← calcRicci E m
    computeScalar E m r

/-- `Calc.py:1306-1329`: the computation in `CalcEinsteinTensor`. -/
def computeEinstein (E : Engine K) (m r s : Id') : PyM K Id' := do
  let x ← calcInit E r ["mu", "nu"]
  let y ← calcInit E s []
  let y ← calcMul E y (.num (ratExpr (1 / 2)))
  let z ← calcInit E m ["mu", "nu"]
  let y ← matmulTensors E y z
  let x ← calcSub E x (.obj y)
  let t ← calcResult E x "Result" "" []
  let comps ← getComponents E t none (some [-1, -1])
  let om ← getObj m
  storeResult (om.name ++ " Einstein") comps m om.coords [-1, -1] "G" t

/-- `Calc.py:1285-1329` `CalcEinsteinTensor`. -/
def calcEinstein (E : Engine K) (m : Id') : PyM K Id' := do
  requireMetric m
  let om ← getObj m
  unlessNamed (om.name ++ " Einstein") do
    let r ← calcRicci E m
    let s ← calcScalar E m
    computeEinstein E m r s

/-- `1/k` in Python, as an expression (`sym.nsimplify` turns the floating-point number into the rational
number again, `Calc.py:383`). -/
def reciprocal (k : Int) : Py K := if k = 0 then .error .zeroDivisionError else .ok (ratExpr (1 / (k : ℚ)))

/-- `Calc.py:1206-1236`: the computation in `CalcWeylTensor`.  The result of `Calc` is not deleted but the
Ricci tensor is. -/
def computeWeyl (E : Engine K) (m : Id') (n : Nat) (riemann ricci scalar : Id') : PyM K Id' := do
  let x ← calcInit E riemann ["i", "k", "l", "m"]
  let f ← PyM.lift (reciprocal ((n : Int) - 2))
  let b ← productOf E ricci ["i", "m"] m ["k", "l"]
  let p ← productOf E ricci ["i", "l"] m ["k", "m"]
  let b ← calcSub E b (.obj p)
  let p ← productOf E ricci ["k", "l"] m ["i", "m"]
  let b ← calcAddObj E b p
  let p ← productOf E ricci ["k", "m"] m ["i", "l"]
  let b ← calcSub E b (.obj p)
  let b ← calcMul E b (.num f)
  let x ← calcAddObj E x b
  let f ← PyM.lift (reciprocal (((n : Int) - 2) * ((n : Int) - 1)))
  let s ← calcInit E scalar []
  let b ← productOf E m ["i", "l"] m ["k", "m"]
  let p ← productOf E m ["i", "m"] m ["k", "l"]
  let b ← calcSub E b (.obj p)
  let b ← matmulTensors E s b
  let b ← calcMul E b (.num f)
  let x ← calcAddObj E x b
  let t ← calcResult E x "Result" "" ["i", "k", "l", "m"]
  let comps ← getComponents E t none (some [-1, -1, -1, -1])
  let om ← getObj m
  storeResult (om.name ++ " Weyl Tensor") comps m om.coords [-1, -1, -1, -1] "C" ricci

/-- `Calc.py:1175-1236` `CalcWeylTensor`. -/
def calcWeyl (E : Engine K) (m : Id') : PyM K Id' := do
  requireMetric m
  let om ← getObj m
  unlessNamed (om.name ++ " Weyl Tensor") do
    let c ← getObj om.coords
    let riemann ← calcRiemann E m
    let ricci ← calcRicci E m
    let scalar ← calcScalar E m
    computeWeyl E m c.syms.length riemann ricci scalar

/-- `x0 x1 ...` (`Calc.py:1351-1360`). -/
def normLabels (r : Nat) : List Sym := (List.range r).map fun i => "x" ++ toString i

/-- `Calc.py:1332-1384` `CalcNormSquared`.  The tensor has to be a `Tensor` or `Metric`. -/
def calcNormSquared (E : Engine K) (t : Id') : PyM K Id' := do
  let o ← getObj t
  unlessNamed (o.name ++ " Norm Squared") do
    let x ← productOf E t (normLabels o.indices.length) t (normLabels o.indices.length)
    let r ← calcResult E x "Result" "" []
    let comps ← getComponents E r none none
    let o ← getObj t
    storeResult (o.name ++ " Norm Squared") comps o.metric o.coords [] "" r

end PyOGRe
