import Verif.Lemmas.Geodesic
import Verif.Spec.Moved

/-! Helper lemmas: what is computed by `calc_*` has components in one coordinate system only. -/

namespace PyOGRe
open Spec
variable {K : Type}

/-- The object has components in its default coordinates only. -/
def Single (w : World K) (r : Id') : Prop :=
  ∃ o, w.objs[r]? = some o ∧ ∀ c', c' ≠ o.coords → o.comps.get? c' = none

/-- Whatever is returned has components in its default coordinates only. -/
def EndsSingle (m : PyM K Id') : Prop := ∀ w r w', m w = (.ok r, w') → Single w' r

theorem endsSingle_bind {α : Type} {m : PyM K α} {f : α → PyM K Id'} (h : ∀ a, EndsSingle (f a)) :
    EndsSingle (m >>= f) := by
  intro w r w' e
  rw [PyM.bind_apply] at e
  rcases hm : m w with ⟨_ | a, w1⟩
  · rw [hm] at e; cases e
  · rw [hm] at e
    exact h a w1 r w' e

theorem endsSingle_raise {e : PyErr} : EndsSingle (PyM.raise e : PyM K Id') := by
  intro w r w' h
  cases h

/-- Coordinates and components of all objects are as before. -/
def SameStore (w w' : World K) : Prop :=
  ∀ i : Nat, (w'.objs[i]?).map (fun o => (o.coords, o.comps)) = (w.objs[i]?).map fun o => (o.coords, o.comps)

theorem SameStore.single {w w' : World K} (h : SameStore w w') {r : Id'} (hr : Single w r) : Single w' r := by
  obtain ⟨o, h1, h2⟩ := hr
  have := h r
  rw [h1] at this
  cases ho : w'.objs[r]? with
  | none => rw [ho] at this; cases this
  | some o' =>
    rw [ho] at this
    simp only [Option.map_some, Option.some.injEq, Prod.mk.injEq] at this
    exact ⟨o', ho, by rw [this.1, this.2]; exact h2⟩

theorem sameStore_deleteObj {w w' : World K} {t : Id'} {e : Except PyErr Unit} (h : deleteObj t w = (e, w')) :
    SameStore w w' := by
  have key : SameStore w { w with objs := w.objs.modify t fun o => { o with alive := false } } := by
    intro i
    show ((w.objs.modify t _)[i]?).map _ = _
    rw [List.getElem?_modify]
    cases w.objs[i]? with
    | none => rfl
    | some o =>
      by_cases hi : t = i
      · simp [hi]
      · simp [hi]
  unfold deleteObj at h
  split_ifs at h
  · cases h; exact fun _ => rfl
  · cases h; exact key
  · cases h; exact key

theorem sameStore_deleteFrom (sel : Obj K → Bool) (fuel : Nat) : ∀ {w w' : World K} {e : Except PyErr Unit} (i : Nat),
    deleteFrom sel deleteObj fuel i w = (e, w') → SameStore w w' := by
  induction fuel with
  | zero => intro w w' e i h; cases h; exact fun _ => rfl
  | succ fuel ih =>
    intro w w' e i h
    unfold deleteFrom at h
    rw [PyM.bind_apply] at h
    dsimp only [PyM.world] at h
    cases hi : w.instances[i]? with
    | none => rw [hi] at h; cases h; exact fun _ => rfl
    | some t =>
      rw [hi] at h
      dsimp only at h
      rw [PyM.bind_apply] at h
      rcases hg : getObj t w with ⟨_ | ot, w1⟩
      · rw [hg] at h
        have : w1 = w := by
          rcases getObj_cases t w with ⟨o, -, -, h⟩ | h <;> rw [h] at hg <;> cases hg
          rfl
        cases h
        rw [this]
        exact fun _ => rfl
      · obtain ⟨rfl, -, -⟩ := getObj_inv hg
        rw [hg] at h
        dsimp only at h
        rw [PyM.bind_apply] at h
        by_cases hs : sel ot = true
        · rw [hs] at h
          rw [show PyM.onlyIf true (deleteObj (K := K) t) w1 = deleteObj t w1 from rfl] at h
          rcases hd : deleteObj t w1 with ⟨_ | _, w2⟩
          · rw [hd] at h
            cases h
            exact sameStore_deleteObj hd
          · rw [hd] at h
            intro k
            rw [ih _ h k]
            exact sameStore_deleteObj hd k
        · rw [show sel ot = false by simpa using hs] at h
          exact ih _ h

theorem endsSingle_newTensor [Zero K] {kind : Kind} {name : Arg String} {comps : Arg (Arr K)} {metric coords : Id'}
    {indices : IndicesArg} {symbol : Arg String} : EndsSingle (newTensor kind name comps metric coords indices symbol) := by
  unfold newTensor
  refine endsSingle_bind fun b => ?_
  split_ifs
  · exact endsSingle_raise
  unfold newBaseTensor
  refine endsSingle_bind fun b => ?_
  split_ifs
  · exact endsSingle_raise
  refine endsSingle_bind fun c => endsSingle_bind fun _ => ?_
  intro w r w' h
  cases h
  refine ⟨_, List.getElem?_concat_length, fun c' hc => ?_⟩
  dsimp only at hc ⊢
  rw [Dict.get?_cons, if_neg (Ne.symm hc)]
  rfl

theorem endsSingle_store {kind : Kind} {name : String} {comps : Arr K} {metric coords : Id'} {ix : List Int} {symbol : String}
    {t : Id'} [Zero K] : EndsSingle (do
      let r ← newTensor kind (.val name) (.val comps) metric coords (.tuple ix) (.val symbol)
      deleteTemps
      deleteObj t
      return r : PyM K Id') := by
  intro w r w' h
  rw [PyM.bind_apply] at h
  rcases hn : newTensor kind (.val name) (.val comps) metric coords (.tuple ix) (.val symbol) w with ⟨_ | i, w1⟩
  · rw [hn] at h; cases h
  have h1 : Single w1 i := endsSingle_newTensor _ _ _ hn
  rw [hn] at h
  dsimp only at h
  rw [PyM.bind_apply] at h
  rcases hd : (deleteTemps : PyM K Unit) w1 with ⟨_ | _, w2⟩
  · rw [hd] at h; cases h
  rw [hd] at h
  dsimp only at h
  rw [PyM.bind_apply] at h
  rcases ht : deleteObj t w2 with ⟨_ | _, w3⟩
  · rw [ht] at h; cases h
  rw [ht] at h
  cases h
  exact (sameStore_deleteObj ht).single ((sameStore_deleteFrom _ _ _ hd).single h1)

variable [CommRing K] [DecidableEq K] [Algebra ℚ K] {E : Engine K}

theorem endsSingle_christoffel (m : Id') : EndsSingle (computeChristoffel E m) := by
  unfold computeChristoffel
  iterate 18 refine endsSingle_bind fun _ => ?_
  exact endsSingle_store

theorem endsSingle_riemann (m c : Id') : EndsSingle (computeRiemann E m c) := by
  unfold computeRiemann storeResult
  iterate 10 refine endsSingle_bind fun _ => ?_
  exact endsSingle_store

theorem endsSingle_ricci (m r : Id') : EndsSingle (computeRicci E m r) := by
  unfold computeRicci storeResult
  iterate 4 refine endsSingle_bind fun _ => ?_
  exact endsSingle_store

theorem endsSingle_scalar (m r : Id') : EndsSingle (computeScalar E m r) := by
  unfold computeScalar storeResult
  iterate 4 refine endsSingle_bind fun _ => ?_
  exact endsSingle_store

theorem endsSingle_einstein (m r s : Id') : EndsSingle (computeEinstein E m r s) := by
  unfold computeEinstein storeResult
  iterate 9 refine endsSingle_bind fun _ => ?_
  exact endsSingle_store

/-- The start of these functions. -/
theorem named_single_of {m : Id'} {suffix : String} {f : Obj K → PyM K Id'} (hf : ∀ o, EndsSingle (f o)) {w : World K} {o : Obj K}
    (ho : w.objs[m]? = some o) (hN : NotNamed w (o.name ++ suffix)) {r : Id'} {w' : World K}
    (e : (do
      requireMetric m
      let om ← getObj m
      unlessNamed (om.name ++ suffix) (f om)) w = (.ok r, w')) : Single w' r := by
  rw [PyM.bind_apply] at e
  have h1 : ∀ x, requireMetric m w = x → x.2 = w := by
    rintro x rfl
    unfold requireMetric isMetric
    rw [PyM.bind_apply]
    show ((if (!(w.objs[m]?).any fun o => o.kind == .metric) = true then PyM.raise .typeError else
      (pure () : PyM K Unit)) w).2 = w
    split_ifs <;> rfl
  rcases hm : requireMetric m w with ⟨_ | _, w1⟩
  · rw [hm] at e; cases e
  have h2 : w1 = w := h1 _ hm
  subst h2
  rw [hm] at e
  dsimp only at e
  rw [PyM.bind_apply] at e
  rcases hg : getObj m w1 with ⟨_ | om, w2⟩
  · rw [hg] at e; cases e
  obtain ⟨rfl, h3, -⟩ := getObj_inv hg
  rw [ho] at h3; cases h3
  rw [hg] at e
  dsimp only at e
  unfold unlessNamed at e
  rw [PyM.bind_apply, findByName_none hN] at e
  exact hf _ _ _ _ e

theorem named_single {m : Id'} {suffix : String} {f : PyM K Id'} (hf : EndsSingle f) {w : World K} {o : Obj K}
    (ho : w.objs[m]? = some o) (hN : NotNamed w (o.name ++ suffix)) {r : Id'} {w' : World K}
    (e : (do
      requireMetric m
      let om ← getObj m
      unlessNamed (om.name ++ suffix) f) w = (.ok r, w')) : Single w' r :=
  named_single_of (f := fun _ => f) (fun _ => hf) ho hN e

end PyOGRe
