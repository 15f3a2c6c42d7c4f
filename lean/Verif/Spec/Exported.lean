import Verif.Spec.Written
import Verif.Model.Export

/-!
# What can be exported and imported

The conditions under which the text of an object means that object again.
-/

namespace PyOGRe
namespace Spec
variable {K : Type} [DecidableEq K] [CommRing K]

/-- The text `s` is an expression of the grammar with the value `x`. -/
def Expressed (R : Reader K) (s : List Char) (x : K) : Prop :=
  ∃ ts t, s = text ts ∧ Block ts ∧ Reads .sum ts (.one t) ∧ visit R t = .ok (.num x)

/-- The printed symbol is read as that symbol. -/
def NamesBack (I : Importer K) (P : Printer K) (s : Sym) : Prop :=
  ∃ x, Expressed I.toReader (P.symbol s) x ∧ I.nameOf x = some s

/-- The components are complete, and their printed forms are read as they were. -/
def ReadsBack (I : Importer K) (P : Printer K) (a : Arr K) : Prop :=
  a.WF ∧ ∀ x ∈ a.data, Expressed I.toReader (P.code x) x

/-- Names that can be written between double quotes. -/
def Nameable (s : String) : Prop := Legible s.toList

/-- `i` is an object of the session with attributes `o`. -/
def IsObj (w : World K) (i : Id') (o : Obj K) : Prop := w.objs[i]? = some o ∧ o.alive = true

/-- The registered objects with the name, in order. -/
def registeredAs (w : World K) (s : String) : List Id' :=
  w.instances.filter fun i => (w.objs[i]?).any fun o => o.name == s

/-- No key occurs twice, as in every Python dictionary. -/
def UniqueKeys {α β : Type} (d : Dict α β) : Prop := (d.map Prod.fst).Nodup

/-- An object whose components can be exported: its own name, those of its coordinate systems, its symbol
and all its components can be read back, `a` are its default components, and no other coordinate system in
which its components are known has the name of the default one. -/
structure Exportable (P : Printer K) (I : Importer K) (w : World K) (o c : Obj K) (a : Arr K) : Prop where
  name : Nameable o.name
  symbol : o.symbol ≠ "" ∧ NamesBack I P o.symbol
  indices : ∀ i ∈ o.indices, i = 1 ∨ i = -1
  coords : IsObj w o.coords c ∧ c.kind = .coordinates ∧ Nameable c.name
  keys : UniqueKeys o.comps
  others : ∀ p ∈ o.comps, UniqueKeys p.2 ∧ ∃ c', IsObj w p.1 c' ∧ Nameable c'.name ∧
    (p.1 ≠ o.coords → c'.name ≠ c.name)
  arrays : ∀ p ∈ o.comps, ∀ q ∈ p.2, (∀ i ∈ q.1, i = 1 ∨ i = -1) ∧ ReadsBack I P q.2
  default : ∃ d, o.comps.get? o.coords = some d ∧ d.get? o.indices = some a
  shape : a.shape = List.replicate o.indices.length c.syms.length
  native : o.indices = [] → o.comps.head?.map (·.1) = some o.coords
  big : o.indices = [] ∨ 2 ≤ c.syms.length

/-- The name of an object. -/
def nameIn (w : World K) (i : Id') : String := ((w.objs[i]?).map Obj.name).getD ""

/-- A coordinate system that can be exported: at least two coordinates; its name, its symbol, the
coordinates, the rules of its transformations and its Jacobian matrices can be read back; its
transformations lead to objects with different names. -/
structure ExportableCoords (P : Printer K) (I : Importer K) (w : World K) (o : Obj K) : Prop where
  kind : o.kind = .coordinates
  name : Nameable o.name
  symbol : o.symbol ≠ "" ∧ NamesBack I P o.symbol
  indices : o.indices = [1]
  syms : ∀ s ∈ o.syms, NamesBack I P s
  big : 2 ≤ o.syms.length
  jac : ∀ p ∈ o.jac, ∃ c', IsObj w p.1 c' ∧ Nameable c'.name ∧
    ReadsBack I P p.2.J ∧ ReadsBack I P p.2.Jinv ∧ ReadsBack I P p.2.JJ
  trans : ∀ p ∈ o.trans, ∃ c', IsObj w p.1 c' ∧ Nameable c'.name ∧
    ∀ r ∈ rulesDict p.2, NamesBack I P r.1 ∧ Expressed I.toReader (P.code r.2) r.2
  targets : (o.trans.map fun p => nameIn w p.1).Nodup

/-- The coordinate system that is imported: it has the coordinates and the transformations, without the
rules that are `None`, but no Jacobian matrices; those are computed again when needed. -/
def restoredCoords (o : Obj K) : Obj K :=
  { kind := .coordinates, name := o.name, symbol := o.symbol, indices := [1], coords := 0, metric := 0,
    comps := [], syms := o.syms, trans := o.trans.map fun p => (p.1, (rulesDict p.2).map some), jac := [],
    alive := true }

/-- The tensor that is imported. -/
def restored (o : Obj K) (a : Arr K) (coords metric : Id') : Obj K :=
  { kind := o.kind, name := o.name, symbol := o.symbol, indices := o.indices, coords := coords,
    metric := metric, comps := [(coords, [(o.indices, a)])], syms := [], trans := [], jac := [],
    alive := true }

/-! ### Everything at once -/

/-- The class of an object. -/
def kindIn (w : World K) (i : Id') : Option Kind := (w.objs[i]?).map Obj.kind

/-- A coordinate system whose transformations lead to other registered coordinate systems. -/
def ImportableCoords (P : Printer K) (I : Importer K) (w : World K) (i : Id') (o : Obj K) : Prop :=
  ExportableCoords P I w o ∧ UniqueKeys o.trans ∧
    ∀ p ∈ o.trans, p.1 ∈ w.instances ∧ kindIn w p.1 = some .coordinates ∧ p.1 ≠ i

/-- A metric over registered coordinates that passes the checks of the constructor. -/
def ImportableMetric (E : Engine K) (P : Printer K) (I : Importer K) (w : World K) (o : Obj K) : Prop :=
  o.kind = .metric ∧ o.coords ∈ w.instances ∧ (∃ m, IsObj w o.metric m ∧ Nameable m.name) ∧
    (o.indices = [-1, -1] ∨ o.indices = [1, 1]) ∧ ∃ c a b, Exportable P I w o c a ∧
      (∀ i j, i < c.syms.length → j < c.syms.length → a.get [i, j] = a.get [j, i]) ∧ E.det a ≠ 0 ∧ E.inv a = .ok b

/-- A tensor over registered coordinates with a registered metric. -/
def ImportableTensor (P : Printer K) (I : Importer K) (w : World K) (o : Obj K) : Prop :=
  o.kind ≠ .coordinates ∧ o.kind ≠ .metric ∧ o.coords ∈ w.instances ∧ o.metric ∈ w.instances ∧
    (∃ m, IsObj w o.metric m ∧ m.kind = .metric ∧ Nameable m.name) ∧ ∃ c a, Exportable P I w o c a

/-- Everything registered can be exported and imported, and no name occurs twice. -/
structure ImportableAll (E : Engine K) (P : Printer K) (I : Importer K) (w : World K) : Prop where
  names : (w.instances.map (nameIn w)).Nodup
  options : ∀ i ∈ w.instances, nameIn w i ≠ "Options"
  each : ∀ i ∈ w.instances, ∃ o, IsObj w i o ∧
    (ImportableCoords P I w i o ∨ ImportableMetric E P I w o ∨ ImportableTensor P I w o)

/-- The registered objects in the order in which they are created again: coordinates, metrics, tensors. -/
def importOrder (w : World K) : List Id' :=
  (w.instances.filter fun i => kindIn w i = some .coordinates) ++
  ((w.instances.filter fun i => kindIn w i = some .metric) ++
    w.instances.filter fun i => kindIn w i ≠ some .coordinates ∧ kindIn w i ≠ some .metric)

/-- `o'` is the object `i` of `w` created again, where `new j` is the new object for `j`. -/
def Recreated (E : Engine K) (w : World K) (new : Id' → Id') (i : Id') (o' : Obj K) : Prop :=
  ∃ o, IsObj w i o ∧
    if o.kind = .coordinates then
      o' = { restoredCoords o with trans := o.trans.map fun p => (new p.1, (rulesDict p.2).map some) }
    else ∃ c d a, IsObj w o.coords c ∧ o.comps.get? o.coords = some d ∧ d.get? o.indices = some a ∧
      if o.kind = .metric then
        ∃ b, E.inv a = .ok b ∧ o' = { restored o a (new o.coords) (new i) with
          comps := [(new o.coords, [(o.indices, a), ([1, -1], eye c.syms.length), ([-1, 1], eye c.syms.length),
            (negIndices o.indices, b)])] }
      else o' = restored o a (new o.coords) (new o.metric)

end Spec
end PyOGRe
