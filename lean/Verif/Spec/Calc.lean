import Verif.Spec.Represent
import Verif.Model.Calc

/-!
# Labelled tensors: what a tensor formula means

Everything takes place in one coordinate system and with one metric (the `Ground`).  A tensor is known
there by its components in its default index configuration (`TField`).  A labelled tensor has a value at
every assignment of positions (1 upper, -1 lower) and of index values to its labels (`TField.at`).
-/

namespace PyOGRe.Spec
open Finset
variable {K : Type}

/-- A coordinate system `c` with `n` coordinates `syms` and a metric `m` with lower components `g` and upper
components `gi` in it. -/
structure Ground (K : Type) where
  n : Nat
  c : Id'
  m : Id'
  syms : List Sym
  g : Nat → Nat → K
  gi : Nat → Nat → K

/-- A tensor: its name, default coordinates and default configuration, and the components in this
configuration in the coordinate system of the ground. -/
structure TField (K : Type) where
  name : String
  coords : Id'
  ix : List Int
  val : List Nat → K

/-- The components in configuration `cfg`: the indices are raised and lowered. -/
def TField.comp [CommRing K] (G : Ground K) (D : TField K) (cfg : List Int) : List Nat → K :=
  applyFactors G.n (List.zipWith (indexFactor G.g G.gi) D.ix cfg) D.val

/-- The value of the tensor labelled with `labels`: label `s` has position `pos s` and value `ρ s`. -/
def TField.at [CommRing K] (G : Ground K) (D : TField K) (labels : List Sym) (pos : Sym → Int) (ρ : Sym → Nat) : K :=
  D.comp G (labels.map pos) (labels.map ρ)

/-- The value when every label has the position that it has in the default configuration. -/
def TField.value (D : TField K) (labels : List Sym) (ρ : Sym → Nat) : K := D.val (labels.map ρ)

/-- All positions are upper or lower. -/
def Positions (pos : Sym → Int) : Prop := ∀ s, pos s = 1 ∨ pos s = -1

/-- All values are smaller than the dimension. -/
def Values (n : Nat) (ρ : Sym → Nat) : Prop := ∀ s, ρ s < n

/-- Einstein's sum over the given labels. -/
def sumOver [AddCommMonoid K] (n : Nat) : List Sym → ((Sym → Nat) → K) → (Sym → Nat) → K
  | [], f, ρ => f ρ
  | s :: ss, f, ρ => ∑ k ∈ range n, sumOver n ss f (Function.update ρ s k)

/-- The positions with those of the given labels turned over. -/
def turned (ss : List Sym) (pos : Sym → Int) (s : Sym) : Int := if s ∈ ss then -pos s else pos s

example : sumOver 2 ["a"] (fun ρ => (ρ "a" : Int) * ρ "b") (fun _ => 5) = 5 := by decide
example : turned ["a"] (fun _ => 1) "a" = -1 ∧ turned ["a"] (fun _ => 1) "b" = 1 := by decide

/-- The position of a label in a configuration. -/
def posOf (labels : List Sym) (ix : List Int) (s : Sym) : Int := ix.getD (labels.idxOf s) 1

/-- The labels that two labelled tensors share, and the other ones. -/
def sharedOf (x y : List Sym) : List Sym := x.filter fun s => decide (s ∈ y)
def unshared (x y : List Sym) : List Sym :=
  (x.filter fun s => decide (s ∉ y)) ++ y.filter fun s => decide (s ∉ x)

/-- Einstein's convention: the product of two labelled values summed over the labels `ss`, which have in the
second one the opposite position. -/
def contracted [CommRing K] (G : Ground K) (ss : List Sym) (A B : (Sym → Int) → (Sym → Nat) → K) (pos : Sym → Int)
    (ρ : Sym → Nat) : K :=
  sumOver G.n ss (fun ρ' => A pos ρ' * B (turned ss pos) ρ') ρ

/-- The labels that occur once, and those that occur twice (each of them once). -/
def single (labels : List Sym) : List Sym := labels.filter fun s => decide (labels.count s = 1)
def repeated (labels : List Sym) : List Sym := (labels.filter fun s => decide (labels.count s = 2)).dedup

/-- The positions that the occurrences of a label have in a configuration. -/
def positionsIn (labels : List Sym) (cfg : List Int) (s : Sym) : List Int :=
  ((labels.zip cfg).filter fun p => decide (p.1 = s)).map (·.2)

/-- A configuration for a label list in which labels may be repeated: labels that occur once have their
position `pos`, and of the two occurrences of a repeated label one is upper and the other lower. -/
structure Opposed (labels : List Sym) (pos : Sym → Int) (cfg : List Int) : Prop where
  length : cfg.length = labels.length
  once : ∀ s, labels.count s = 1 → positionsIn labels cfg s = [pos s]
  twice : ∀ s, labels.count s = 2 → positionsIn labels cfg s = [1, -1] ∨ positionsIn labels cfg s = [-1, 1]

example : single ["a", "b", "a", "c"] = ["b", "c"] ∧ repeated ["a", "b", "a", "c"] = ["a"] ∧
    positionsIn ["a", "b", "a"] [1, -1, -1] "a" = [1, -1] := by decide

/-- The tensors in view. -/
abbrev View (K : Type) := Id' → Option (TField K)

/-- All tensors in view are still there. -/
def View.Extends (V V' : View K) : Prop := ∀ t D, V t = some D → V' t = some D

/-- The object `o` is the tensor `D`: it is in use, and in the coordinate system of the ground at least one
representation is stored, all of which are right; the default one is stored if this is the default
coordinate system, and all of them if the object is a metric; the default coordinates of a scalar are those it was
created in. -/
structure Shows [CommRing K] (G : Ground K) (D : TField K) (o : Obj K) : Prop where
  alive : o.alive = true
  kind : o.kind = .metric ∨ o.kind = .tensor ∨ o.kind = .christoffel
  name : o.name = D.name
  metric : o.metric = G.m
  coords : o.coords = D.coords
  indices : o.indices = D.ix
  config : Config D.ix.length D.ix
  native : D.ix = [] → o.comps.head?.map (·.1) = some D.coords
  stored : ∃ d, o.comps.get? G.c = some d ∧ d ≠ [] ∧
    (∀ cfg a, d.get? cfg = some a → Config D.ix.length cfg ∧ Agree G.n D.ix.length a (D.comp G cfg)) ∧
    (D.coords = G.c → ∃ a, d.get? D.ix = some a) ∧
    (o.kind = .metric → D.ix.length = 2 ∧ ∀ cfg, Config 2 cfg → ∃ a, d.get? cfg = some a)

/-- The registry is in order: no object is registered twice, registered objects are in use and refer only
to coordinate systems and metrics, and none of these is called `TEMP`. -/
structure RegistryOK (w : World K) : Prop where
  nodup : w.instances.Nodup
  inUse : ∀ i ∈ w.instances, ∃ o, w.objs[i]? = some o ∧ o.alive = true
  refs : ∀ i ∈ w.instances, ∀ o, w.objs[i]? = some o → ∀ t, o.uses t = true →
    ∃ o', w.objs[t]? = some o' ∧ (o'.kind = .coordinates ∨ o'.kind = .metric)
  temp : ∀ i ∈ w.instances, ∀ o, w.objs[i]? = some o → o.name = "TEMP" →
    o.kind ≠ .coordinates ∧ o.kind ≠ .metric

/-- A session state in which the ground and the tensors in view are what they should be. -/
structure Scene [CommRing K] (G : Ground K) (V : View K) (w : World K) : Prop where
  pos : 0 < G.n
  chart : ∃ o, w.objs[G.c]? = some o ∧ o.kind = .coordinates ∧ o.alive = true ∧ o.syms = G.syms
  dim : G.syms.length = G.n
  inverse : Inverse G.n G.g G.gi
  symm : ∀ i j, i < G.n → j < G.n → G.g i j = G.g j i
  metric : ∃ D o, V G.m = some D ∧ w.objs[G.m]? = some o ∧ o.kind = .metric ∧
    ∀ i j, i < G.n → j < G.n → D.comp G [-1, -1] [i, j] = G.g i j
  shows : ∀ t D, V t = some D → ∃ o, w.objs[t]? = some o ∧ Shows G D o
  registry : RegistryOK w

/-- The formula `x` is tensor `t` of the view, with distinct labels, one for each index. -/
structure Names (V : View K) (x : CalcObj) (t : Id') (D : TField K) : Prop where
  role : x.role = .tensor
  tensor : x.tensor = some t
  field : V t = some D
  nodup : x.labels.Nodup
  length : x.labels.length = D.ix.length

/-- The same, and the default coordinates of the tensor are those of the ground. -/
structure Denotes (G : Ground K) (V : View K) (x : CalcObj) (t : Id') (D : TField K) : Prop extends
    Names V x t D where
  coords : D.coords = G.c

/-- `m` returns, and then `Q` holds of the result and the new state. -/
def Does {α : Type} (m : PyM K α) (w : World K) (Q : α → World K → Prop) : Prop :=
  ∃ a w', m w = (.ok a, w') ∧ Q a w'

/-- `m` raises the exception `e`. -/
def Fails {α : Type} (m : PyM K α) (w : World K) (e : PyErr) : Prop := ∃ w', m w = (.error e, w')

/-- From `w` to `w'` nothing happened to the objects of the session (except that more of their
representations may be stored), and only temporary tensors were registered. -/
def OnlyTemps (w w' : World K) : Prop :=
  (∀ (i : Nat) o, w.objs[i]? = some o → ∃ o', w'.objs[i]? = some o' ∧ o'.kind = o.kind ∧ o'.name = o.name ∧
    o'.symbol = o.symbol ∧ o'.indices = o.indices ∧ o'.coords = o.coords ∧ o'.metric = o.metric ∧
    o'.syms = o.syms ∧ o'.trans = o.trans ∧ o'.alive = o.alive) ∧
  ∃ l, w'.instances = w.instances ++ l ∧ ∀ i ∈ l, w.objs.length ≤ i ∧
    ∃ o, w'.objs[i]? = some o ∧ o.name = "TEMP"

/-- The formula `m` evaluates to a labelled tensor with property `P`, and nothing happens to the rest of the
session. -/
def Evaluates [CommRing K] (G : Ground K) (V : View K) (w : World K) (m : PyM K CalcObj)
    (P : List Sym → TField K → Prop) : Prop :=
  Does m w fun z w' => ∃ V' t D, Scene G V' w' ∧ V.Extends V' ∧ OnlyTemps w w' ∧ Denotes G V' z t D ∧
    P z.labels D

/-- The tensors in view that are not temporary are still there. -/
def View.Keeps (V V' : View K) : Prop := ∀ t D, V t = some D → D.name ≠ "TEMP" → V' t = some D

/-- From `w` to `w'` nothing happened to the objects of the session that are not temporary tensors (except
that more of their representations may be stored), and apart from temporary tensors the newly registered
objects are those in `new`. -/
def Leaves (new : Id' → Prop) (w w' : World K) : Prop :=
  (∀ (i : Nat) o, w.objs[i]? = some o → ∃ o', w'.objs[i]? = some o' ∧ o'.kind = o.kind ∧ o'.name = o.name ∧
    o'.symbol = o.symbol ∧ o'.indices = o.indices ∧ o'.coords = o.coords ∧ o'.metric = o.metric ∧
    o'.syms = o.syms ∧ o'.trans = o.trans ∧
    (o.name ≠ "TEMP" → o'.alive = o.alive ∧ (i ∈ w'.instances ↔ i ∈ w.instances))) ∧
  ∀ i ∈ w'.instances, w.objs.length ≤ i → new i ∨ ∃ o, w'.objs[i]? = some o ∧ o.name = "TEMP"

/-- `t` is a newly registered tensor. -/
def New (w w' : World K) (t : Id') : Prop :=
  w.objs.length ≤ t ∧ t ∈ w'.instances ∧ ∃ o, w'.objs[t]? = some o ∧ (o.kind = .tensor ∨ o.kind = .christoffel)

/-- `m` returns a new tensor with property `P`, and nothing happens to the rest of the session apart from
temporary tensors. -/
def Yields [CommRing K] (G : Ground K) (V : View K) (w : World K) (m : PyM K Id') (P : TField K → Prop) : Prop :=
  Does m w fun t w' => ∃ V' D, Scene G V' w' ∧ V.Keeps V' ∧ Leaves (· = t) w w' ∧ New w w' t ∧
    V' t = some D ∧ D.coords = G.c ∧ P D

end PyOGRe.Spec
