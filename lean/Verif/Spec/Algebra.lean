import Verif.Spec.Formula

/-!
# The laws of tensor algebra

`Laws f f'` says that the formula `f` can be turned into `f'` by the laws of tensor algebra: sums and products
in any order and grouping, distributivity, and the rules for numbers.  A product may be grouped differently
only if no label is common to all its three factors.  The laws may be used anywhere in a formula except below
a derivative: the components that are differentiated are those in the default configuration, and the default
configuration of a sum is that of its first term.
-/

namespace PyOGRe.Spec
variable {K : Type}

/-- The formulae are equal by the laws of tensor algebra. -/
inductive Laws [CommRing K] : Formula K → Formula K → Prop
  | refl (f : Formula K) : Laws f f
  | symm {f g : Formula K} : Laws f g → Laws g f
  | trans {f g h : Formula K} : Laws f g → Laws g h → Laws f h
  /-- `f + g = g + f` -/
  | add_comm (f g : Formula K) : Laws (.add f g) (.add g f)
  /-- `(f + g) + h = f + (g + h)` -/
  | add_assoc (f g h : Formula K) : Laws (.add (.add f g) h) (.add f (.add g h))
  /-- `f @ g = g @ f` -/
  | mul_comm (f g : Formula K) : Laws (.mul f g) (.mul g f)
  /-- `(f @ g) @ h = f @ (g @ h)` -/
  | mul_assoc (f g h : Formula K) (hl : ∀ s ∈ f.labels, s ∈ g.labels → s ∉ h.labels) :
    Laws (.mul (.mul f g) h) (.mul f (.mul g h))
  /-- `f @ (g + h) = f @ g + f @ h` -/
  | mul_add (f g h : Formula K) (hl : h.labels.Perm g.labels) :
    Laws (.mul f (.add g h)) (.add (.mul f g) (.mul f h))
  /-- `f @ (v * g) = v * (f @ g)` -/
  | mul_scale (v : K) (f g : Formula K) : Laws (.mul f (.scale v g)) (.scale v (.mul f g))
  /-- `v * (f + g) = v * f + v * g` -/
  | scale_add (v : K) (f g : Formula K) : Laws (.scale v (.add f g)) (.add (.scale v f) (.scale v g))
  /-- `(u + v) * f = u * f + v * f` -/
  | add_scale (u v : K) (f : Formula K) : Laws (.scale (u + v) f) (.add (.scale u f) (.scale v f))
  /-- `u * (v * f) = (u * v) * f` -/
  | scale_scale (u v : K) (f : Formula K) : Laws (.scale u (.scale v f)) (.scale (u * v) f)
  /-- `1 * f = f` -/
  | scale_one (f : Formula K) : Laws (.scale 1 f) f
  /-- `-f = (-1) * f` -/
  | neg_scale (f : Formula K) : Laws (.neg f) (.scale (-1) f)
  /-- `f - g = f + -g` -/
  | sub_neg (f g : Formula K) : Laws (.sub f g) (.add f (.neg g))
  | scale (v : K) {f f' : Formula K} : Laws f f' → Laws (.scale v f) (.scale v f')
  | neg {f f' : Formula K} : Laws f f' → Laws (.neg f) (.neg f')
  | add {f f' g g' : Formula K} : Laws f f' → Laws g g' → Laws (.add f g) (.add f' g')
  | sub {f f' g g' : Formula K} : Laws f f' → Laws g g' → Laws (.sub f g) (.sub f' g')
  | mul {f f' g g' : Formula K} : Laws f f' → Laws g g' → Laws (.mul f g) (.mul f' g')

/-- The two computations evaluate, from the same session, to the same labelled tensor `T`. -/
def SameTensor [CommRing K] (G : Ground K) (V : View K) (w : World K) (m m' : PyM K CalcObj) : Prop :=
  ∃ (labels : List Sym) (T : (Sym → Int) → (Sym → Nat) → K),
    (Evaluates G V w m fun l D => l.Perm labels ∧ ∀ pos ρ, Positions pos → Values G.n ρ → D.at G l pos ρ = T pos ρ) ∧
    Evaluates G V w m' fun l D => l.Perm labels ∧ ∀ pos ρ, Positions pos → Values G.n ρ → D.at G l pos ρ = T pos ρ

/-- A difference with itself is zero times it. -/
example (f : Formula ℤ) : Laws (.sub f f) (.scale 0 f) := by
  refine .trans (.sub_neg f f) (.trans (.add (.symm (.scale_one f)) (.neg_scale f)) ?_)
  have h := Laws.symm (Laws.add_scale 1 (-1) f)
  rwa [add_neg_cancel] at h

/-- A product with a sum on the left. -/
example (f g h : Formula ℤ) (hl : g.labels.Perm f.labels) : Laws (.mul (.add f g) h) (.add (.mul h f) (.mul h g)) :=
  .trans (.mul_comm _ _) (.mul_add h f g hl)

end PyOGRe.Spec
