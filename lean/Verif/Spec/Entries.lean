import Verif.Model.Export

/-!
# Specification: what the entries of an exported text say about an object
-/

namespace PyOGRe.Spec
variable {K : Type}

/-- The association `v` says `x` under the key. -/
def Under (v : Val K) (key : String) (x : Val K) : Prop :=
  ∃ before after, v = .dict (before ++ (.str key.toList, x) :: after) ∧ ∀ p ∈ before, p.1 ≠ .str key.toList

/-- The association `v` says nothing under the key. -/
def Silent (v : Val K) (key : String) : Prop := ∀ x, ¬ Under v key x

/-- The first object in a text, which may begin with options. -/
def FirstEntry (d : List (Val K × Val K)) (key entry : Val K) : Prop :=
  ∃ before after, d = before ++ (key, entry) :: after ∧ (∀ p ∈ before, p.1 = .str "Options".toList) ∧
    key ≠ .str "Options".toList

/-- The roles, with the classes and the symbols that the objects of a class have by default. -/
def roleTable : List (String × Kind × String) :=
  [("Coordinates", .coordinates, "x"), ("Metric", .metric, "g"), ("Tensor", .tensor, "T"), ("Calculated", .tensor, "T"),
   ("NormSquared", .tensor, "T"), ("Riemann", .tensor, "T"), ("Ricci Tensor", .tensor, "T"), ("Ricci Scalar", .tensor, "T"),
   ("Einstein", .tensor, "T"), ("Christoffel", .christoffel, "Gamma"), ("Lagrangian", .lagrangian, "L"),
   ("GeodesicFromLagrangian", .geodesicLagrangian, "0"), ("GeodesicFromChristoffel", .geodesicChristoffel, "0"),
   ("GeodesicWithTimeParameter", .geodesicTime, "0")]

/-- The registered object `i` has the name. -/
def Called (w : World K) (s : String) (i : Id') : Prop := ∃ o, w.objs[i]? = some o ∧ o.name = s

/-- `i` is the first registered object with the name. -/
def FirstCalled (w : World K) (s : String) (i : Id') : Prop :=
  ∃ before after, w.instances = before ++ i :: after ∧ Called w s i ∧ ∀ j ∈ before, ¬ Called w s j

/-- `i` is the last registered object with the name. -/
def LastCalled (w : World K) (s : String) (i : Id') : Prop :=
  ∃ before after, w.instances = before ++ i :: after ∧ Called w s i ∧ ∀ j ∈ after, ¬ Called w s j

/-- Nested lists of numbers, as an array. -/
inductive Tabulates : Val K → Arr K → Prop
  | num (x : K) : Tabulates (.num x) ⟨[], [x]⟩
  | list (l : List (Val K)) (as : List (Arr K)) (s : List Nat) (h : List.Forall₂ Tabulates l as)
      (hs : ∀ a ∈ as, a.shape = s) : Tabulates (.list l) ⟨l.length :: s, as.flatMap Arr.data⟩

/-- The components of an object in a text: those under the default indices and coordinates, the last ones if there are
several.  A list of one value stands for the value. -/
def ComponentsIn (entry : Val K) (a : Arr K) : Prop :=
  ∃ ix c keys values j rest l, Under entry "DefaultIndices" ix ∧ Under entry "DefaultCoords" c ∧
    Under entry "Components" (.table keys values) ∧ keys[j]? = some (.list (ix :: c :: rest)) ∧
    values[j]? = some (.list l) ∧ (∀ k rest', j < k → k < values.length → keys[k]? ≠ some (.list (ix :: c :: rest'))) ∧
    ((l.length > 1 ∧ Tabulates (.list l) a) ∨ ∃ x, l = [x] ∧ Tabulates x a)

/-- The object `o`, with number `i`, is the one that the entry of a text describes; `nameOf` gives the names of
symbols, and `M` says which object a name for a metric means. -/
structure Described (nameOf : K → Option Sym) [CommRing K] (w : World K) (M : String → Id' → Prop) (key entry : Val K) (i : Id') (o : Obj K) : Prop where
  alive : o.alive = true
  role : ∃ r s, (r, o.kind, s) ∈ roleTable ∧ Under entry "Role" (.str r.toList) ∧ (Silent entry "Symbol" → o.symbol = s)
  name : key = .str o.name.toList
  symbol : ∀ x, Under entry "Symbol" x → x = .str o.symbol.toList ∨ ∃ y, x = .num y ∧ nameOf y = some o.symbol
  indices : Under entry "DefaultIndices" (.list (o.indices.map fun k : Int => .num (Int.cast k)))
  coords : o.kind ≠ .coordinates → ∃ s oc, Under entry "DefaultCoords" (.str s.toList) ∧ FirstCalled w s o.coords ∧
    w.objs[o.coords]? = some oc ∧ oc.kind = .coordinates
  metric : o.kind ≠ .coordinates → o.kind ≠ .metric → ∃ s om, Under entry "Metric" (.str s.toList) ∧ M s o.metric ∧
    w.objs[o.metric]? = some om ∧ om.kind = .metric
  itself : o.kind = .metric → o.metric = i
  comps : ∃ a, ComponentsIn entry a ∧
    (o.kind ≠ .coordinates → ∃ d, o.comps.get? o.coords = some d ∧ d.get? o.indices = some a) ∧
    (o.kind = .coordinates → o.syms.map some = a.data.map nameOf ∧ a.shape = [a.data.length])

open Classical in
/-- The entries of a text that describe objects. -/
noncomputable def objectEntries (d : List (Val K × Val K)) : List (Val K × Val K) :=
  d.filter fun p => decide (p.1 ≠ .str "Options".toList)

/-- The entries `es` are those of the text, with the coordinates first, then the metrics, then the others, and otherwise
in the order of the text. -/
def CoordinatesFirst (d es : List (Val K × Val K)) : Prop :=
  ∃ a b c, es = a ++ b ++ c ∧ es.Perm (objectEntries d) ∧ a.Sublist d ∧ b.Sublist d ∧ c.Sublist d ∧
    (∀ p ∈ a, Under p.2 "Role" (.str "Coordinates".toList)) ∧ (∀ p ∈ b, Under p.2 "Role" (.str "Metric".toList)) ∧
    ∀ p ∈ c, ∃ r, Under p.2 "Role" (.str r) ∧ r ≠ "Coordinates".toList ∧ r ≠ "Metric".toList

/-- Among the entries for coordinates there is one with the name `name` that lists the rules `v` for the target `s`. -/
def RuleGiven (d : List (Val K × Val K)) (name s : String) (v : Val K) : Prop :=
  ∃ p ∈ objectEntries d, p.1 = .str name.toList ∧ Under p.2 "Role" (.str "Coordinates".toList) ∧
    ∃ t, Under p.2 "CoordTransformations" (.dict t) ∧ (.str s.toList, v) ∈ t

/-- A list of equations for symbols, as transformation rules. -/
def EquationsFor (nameOf : K → Option Sym) (v : Val K) (rules : List (Option (Sym × K))) : Prop :=
  ∃ l, v = .list l ∧ List.Forall₂ (fun e r => ∃ a b s, e = .eq a b ∧ nameOf a = some s ∧ r = some (s, b)) l rules

end PyOGRe.Spec
