import Verif.Model.Display
import Verif.Spec.Charts
import Verif.Spec.Registry
import Mathlib.Algebra.BigOperators.Group.List.Basic
import Mathlib.LinearAlgebra.Matrix.Determinant.Basic

/-! Vocabulary for the properties about what is displayed (C62 - C65, C71). -/

namespace PyOGRe.Spec
open Finset
variable {K : Type}

/-- The non-zero components in groups: a group is a value and a list of entries, and an entry is a position,
marked if it is shown with a minus sign.  Every position with a non-zero component occurs exactly once in one group
and no other position occurs; an entry is marked iff the component is the negative of the value of its group, and it
is not marked iff the component is the value; there are no empty groups, and no two groups have the same value, even
up to the sign. -/
structure Grouped [Ring K] (n r : Nat) (comp : List Nat → K) (groups : List (K × List (Bool × List Nat))) : Prop where
  once : ∀ I ∈ tuples n r, comp I ≠ 0 → ((groups.flatMap fun g => g.2).map fun e => e.2).count I = 1
  only : ∀ g ∈ groups, ∀ e ∈ g.2, e.2 ∈ tuples n r ∧ comp e.2 ≠ 0
  sign : ∀ g ∈ groups, ∀ e ∈ g.2, (e.1 = true ↔ comp e.2 = -g.1) ∧ (e.1 = false ↔ comp e.2 = g.1)
  nonempty : ∀ g ∈ groups, g.2 ≠ []
  different : groups.Pairwise fun g h => g.1 ≠ h.1 ∧ g.1 ≠ -h.1

/-- The upper and lower indices of a symbol, one name for each. -/
def indexed (tex : Sym → List Char) (latex : Bool) : List Int → List Sym → List Char
  | i :: ix, x :: xs =>
    (if i = 1 then '^' else '_') :: (if latex then ('{' :: tex x) ++ ['}', '{', ' ', '}'] else x.toList) ++
      indexed tex latex ix xs
  | _, _ => []

/-- The symbol of an object, or its replacement if it has none. -/
def symbolText (tex : Sym → List Char) (latex : Bool) (symbol : String) : List Char :=
  if symbol = "" then (if latex then "\\square".toList else "T".toList)
  else if latex then tex symbol else symbol.toList

/-- An entry as it is shown: the symbol with the coordinates of the position as indices, after a minus sign if it is
marked. -/
def entryShown (tex : Sym → List Char) (latex : Bool) (symbol : String) (ix : List Int) (syms : List Sym)
    (e : Bool × List Nat) : List Char :=
  (if e.1 then ['-'] else []) ++ symbolText tex latex symbol ++
    indexed tex latex ix (e.2.map fun k => syms.getD k "")

/-- Entries separated by equality signs. -/
def equals (l : List (List Char)) : List Char := [' ', '=', ' '].intercalate l

/-- The text consists of lines which together have all entries in their order, `num` entries on each line but the
last, and at most `num` and at least one on the last; the value follows the last entry. -/
def Broken (num : Nat) (entries : List (List Char)) (value text : List Char) : Prop :=
  ∃ (lines : List (List (List Char))) (last : List (List Char)), lines.flatten ++ last = entries ∧
    (∀ l ∈ lines, l.length = num) ∧ 0 < last.length ∧ last.length ≤ num ∧
    text = (lines.flatMap fun l => equals l ++ "= \\\\[2pt]".toList) ++ equals last ++ " &= ".toList ++ value

/-- The page shown with LaTeX for some groups: a heading, then the groups one after the other, or the remark that
there are none. -/
def Page (T : Typeset K) (opt : Options) (name : String) (shown : Bool × List Nat → List Char)
    (groups : List (K × List (Bool × List Nat))) (out : List (Out K)) : Prop :=
  ∃ head : List Char, name.toList <:+: head ∧
    ((groups = [] ∧ out = [.markdown (head ++ "pt'> No Non-Zero Elements </div>".toList)]) ∨
      (groups ≠ [] ∧ ∃ texts, List.Forall₂ (fun g t => Broken opt.perLine.toNat (g.2.map shown) (T.expr g.1) t) groups
          texts ∧
        out = [.markdown (head ++ "pt'> \n\n $$ \n\\begin{aligned} \n".toList ++
          "\\\\[10pt]".toList.intercalate texts ++ "\n \\end{aligned} \n $$ \n\n </div>".toList)]))

/-- What is printed without LaTeX: the name, then one equation per entry, or the remark that there are none. -/
def Printed (name : String) (shown : Bool × List Nat → List Char) (groups : List (K × List (Bool × List Nat)))
    (out : List (Out K)) : Prop :=
  out = .line (name.toList ++ [':']) ::
    if groups = [] then [.line "No Non-Zero Elements".toList]
    else groups.flatMap fun g => g.2.map fun e => .equation (shown e) g.1

/-- The names in a string: the longest parts without commas and white space. -/
def namesIn (s : List Char) : List (List Char) :=
  (s.splitOnP fun c => c == ',' || isSpace c).filter fun w => w ≠ []

/-- `ds²` as a sum over all components. -/
def quadratic [CommRing K] (n : Nat) (g : Nat → Nat → K) (dx : Nat → K) : K :=
  ∑ i ∈ range n, ∑ j ∈ range n, g i j * dx i * dx j

/-- `ds²` as it is written with LaTeX: the squares `d x²` and the products `d x d y` with twice the component. -/
def quadraticWritten [CommRing K] {A : Type} [Ring A] [Algebra K A] (n : Nat) (g : Nat → Nat → K) (d : A)
    (x : Nat → A) : A :=
  ∑ i ∈ range n, (g i i • (d * x i ^ 2) + ∑ j ∈ range n, if i < j then (2 * g i j) • (d * x i * d * x j) else 0)

/-- The determinant of a matrix given as an array. -/
def determinant [CommRing K] (n : Nat) (a : Arr K) : K := Matrix.det fun i j : Fin n => entry a i j

/-- The text lists the names of these objects, separated by commas. -/
def Listed (w : World K) (objs : List Id') (text : List Char) : Prop :=
  ∃ names : List String, List.Forall₂ (fun i name => Named w name i) objs names ∧
    text = [',', ' '].intercalate (names.map String.toList)

/-- The registered objects, other than coordinate systems, that satisfy a condition. -/
def Registered (w : World K) (cond : Obj K → Prop) (objs : List Id') : Prop :=
  objs.Sublist w.instances ∧
    ∀ i, i ∈ objs ↔ i ∈ w.instances ∧ ∃ o, w.objs[i]? = some o ∧ o.kind ≠ .coordinates ∧ cond o

/-- The classes of objects. -/
def classTitle (kind : Kind) : String :=
  if kind = .coordinates then "Coordinates" else if kind = .metric then "Metric" else if kind = .tensor then "Tensor"
  else if kind = .christoffel then "Christoffel" else if kind = .lagrangian then "Lagrangian"
  else if kind = .geodesicLagrangian then "GeodesicLagrangian"
  else if kind = .geodesicChristoffel then "GeodesicChristoffel" else "GeodesicTime"

/-- What `info` has to show for a registered object: its name and its class; for a coordinate system the systems
it has rules for and the objects that use it by default; for a metric its coordinates and the objects that use it;
for any other object its coordinates and its metric. -/
def Informs (w : World K) (t : Id') (o : Obj K) (info : Dict String (List Char)) : Prop :=
  List.lookup "Name" info = some o.name.toList ∧ List.lookup "Type" info = some (classTitle o.kind).toList ∧
  (o.kind = .coordinates →
    (o.trans = [] → List.lookup "Coordinate Transformations" info = none) ∧
    (o.trans ≠ [] → ∃ text, List.lookup "Coordinate Transformations" info = some text ∧
      Listed w (o.trans.map (·.1)) text) ∧
    ∃ users text, List.lookup "Default Coordinates For" info = some text ∧ Registered w (fun p => p.coords = t) users ∧
      Listed w users text) ∧
  (o.kind ≠ .coordinates → ∃ oc, w.objs[o.coords]? = some oc ∧
    List.lookup "Default Coordinates" info = some oc.name.toList) ∧
  (o.kind = .metric → ∃ users text, List.lookup "Tensors Using This Metric" info = some text ∧
    Registered w (fun p => p.metric = t) users ∧ Listed w users text) ∧
  (o.kind ≠ .coordinates → o.kind ≠ .metric → ∃ om, w.objs[o.metric]? = some om ∧
    List.lookup "Metric" info = some om.name.toList)

end PyOGRe.Spec
