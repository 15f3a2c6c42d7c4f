import Verif.Lemmas.Spares

/-! Helper lemmas: registered objects refer to registered objects. -/

namespace PyOGRe
open Spec
variable {K : Type} {w w' w'' : World K} {α β : Type}

/-- The stored components have no keys but the old ones and those in `S`. -/
def NewKeys (S : Id' → Prop) (w w' : World K) : Prop :=
  ∀ (i : Nat) o', w'.objs[i]? = some o' → ∃ o, w.objs[i]? = some o ∧
    ∀ k d, (k, d) ∈ o'.comps → (∃ d, (k, d) ∈ o.comps) ∨ S k

theorem NewKeys.refl (S : Id' → Prop) (w : World K) : NewKeys S w w := fun _ o h => ⟨o, h, fun _ d hd => Or.inl ⟨d, hd⟩⟩

theorem NewKeys.trans {S : Id' → Prop} (h : NewKeys S w w') (h' : NewKeys S w' w'') : NewKeys S w w'' := by
  intro i o'' ho''
  obtain ⟨o', h1, h2⟩ := h' i o'' ho''
  obtain ⟨o, h3, h4⟩ := h i o' h1
  refine ⟨o, h3, fun k d hd => ?_⟩
  rcases h2 k d hd with ⟨d', hd'⟩ | hk
  · exact h4 k d' hd'
  · exact Or.inr hk

/-- The default coordinates of object `t` are in `S`. -/
def Base (t : Id') (S : Id' → Prop) (w : World K) : Prop := ∀ o, w.objs[t]? = some o → o.alive = true → S o.coords

theorem Base.frame {t : Id'} {S : Id' → Prop} (h : Base t S w) (hf : Frame w w') : Base t S w' := by
  intro o' ho' ha
  obtain ⟨o, h1, h2⟩ := hf.symm.get ho'
  rw [show o'.coords = o.coords from (congrArg (·.2.2.2.2.1) h2).symm]
  exact h o h1 ((congrArg (·.2.2.2.2.2.2.2.2) h2).trans ha)

/-- Only caches change, and new keys are in `S`. -/
def Keys (t : Id') (S : Id' → Prop) (m : PyM K α) (Q : α → Prop) : Prop :=
  ∀ w, Base t S w → Frame w (m w).2 ∧ NewKeys S w (m w).2 ∧ ∀ a, (m w).1 = .ok a → Q a

section
variable {t : Id'} {S : Id' → Prop}

theorem Keys.bind {m : PyM K α} {f : α → PyM K β} {P : α → Prop} {Q : β → Prop} (hm : Keys t S m P)
    (hf : ∀ a, P a → Keys t S (f a) Q) : Keys t S (m >>= f) Q := by
  intro w hw
  obtain ⟨h1, h2, h3⟩ := hm w hw
  rw [PyM.bind_apply]
  rcases h : m w with ⟨r, w'⟩
  rw [h] at h1 h2 h3
  cases r with
  | ok a =>
    obtain ⟨k1, k2, k3⟩ := hf a (h3 a rfl) w' (hw.frame h1)
    exact ⟨h1.trans k1, h2.trans k2, k3⟩
  | error e => exact ⟨h1, h2, fun _ h => nomatch h⟩

theorem Keys.pure (a : α) : Keys t S (Pure.pure a : PyM K α) fun _ => True :=
  fun w _ => ⟨Frame.refl w, NewKeys.refl S w, fun _ _ => trivial⟩
theorem Keys.raise {e : PyErr} : Keys t S (PyM.raise e : PyM K α) fun _ => True :=
  fun w _ => ⟨Frame.refl w, NewKeys.refl S w, fun _ _ => trivial⟩
theorem Keys.lift (x : Py α) : Keys t S (PyM.lift x : PyM K α) fun _ => True :=
  fun w _ => ⟨Frame.refl w, NewKeys.refl S w, fun _ _ => trivial⟩
theorem Keys.ite {b : Prop} [Decidable b] {m m' : PyM K α} {Q : α → Prop} (h : Keys t S m Q) (h' : Keys t S m' Q) :
    Keys t S (if b then m else m') Q := by split_ifs <;> assumption
theorem Keys.onlyIf {b : Bool} {m : PyM K Unit} (h : Keys t S m fun _ => True) :
    Keys t S (PyM.onlyIf b m) fun _ => True := Keys.ite h (Keys.pure ())
theorem Keys.getObj (i : Id') : Keys t S (K := K) (PyOGRe.getObj i) fun _ => True := by
  intro w hw
  rcases getObj_cases i w with ⟨o, -, -, h⟩ | h <;> rw [h] <;> exact ⟨Frame.refl w, NewKeys.refl S w, fun _ _ => trivial⟩
theorem Keys.self : Keys t S (K := K) (PyOGRe.getObj t) fun o => S o.coords := by
  intro w hw
  rcases getObj_cases t w with ⟨o, h1, h2, h⟩ | h <;> rw [h]
  · exact ⟨Frame.refl w, NewKeys.refl S w, fun a ha => by cases ha; exact hw o h1 h2⟩
  · exact ⟨Frame.refl w, NewKeys.refl S w, fun a ha => nomatch ha⟩
theorem Keys.lookup {α β : Type} [DecidableEq α] (d : Dict α β) (k : α) :
    Keys t S (K := K) (PyOGRe.lookup d k) fun _ => True := by
  unfold PyOGRe.lookup
  cases d.get? k <;> first | exact Keys.raise | exact Keys.pure _
theorem Keys.readComps (i c : Id') (ix : List Int) : Keys t S (K := K) (PyOGRe.readComps i c ix) fun _ => True := by
  unfold PyOGRe.readComps
  exact Keys.bind (Keys.getObj _) fun _ _ => Keys.bind (Keys.lookup _ _) fun _ _ => Keys.lookup _ _

theorem mem_set {α β : Type} [DecidableEq α] {d : Dict α β} {k k' : α} {v v' : β} (h : (k', v') ∈ Dict.set d k v) :
    (∃ v, (k', v) ∈ d) ∨ k' = k := by
  induction d with
  | nil =>
    simp only [Dict.set, List.mem_singleton, Prod.mk.injEq] at h
    exact Or.inr h.1
  | cons p d ih =>
    unfold Dict.set at h
    split_ifs at h with hp
    · rcases List.mem_cons.1 h with h | h
      · exact Or.inr (congrArg Prod.fst h)
      · exact Or.inl ⟨v', by simp [h]⟩
    · rcases List.mem_cons.1 h with h | h
      · exact Or.inl ⟨v', by simp [h]⟩
      · rcases ih h with ⟨u, hu⟩ | h
        · exact Or.inl ⟨u, by simp [hu]⟩
        · exact Or.inr h

theorem Keys.modify {i : Id'} {u : Obj K → Obj K} (h : ∀ o, (u o).core = o.core)
    (hk : ∀ o k d, (k, d) ∈ (u o).comps → (∃ d, (k, d) ∈ o.comps) ∨ S k) :
    Keys t S (modifyObj i u) fun _ => True := by
  intro w hw
  refine ⟨Steady.modifyObj i u h w, fun j o' ho' => ?_, fun _ _ => trivial⟩
  replace ho' : (w.objs.modify i u)[j]? = some o' := ho'
  by_cases hij : i = j
  · subst hij
    cases ho : w.objs[i]? with
    | none =>
      rw [List.getElem?_modify, ho] at ho'
      cases ho'
    | some o =>
      rw [modify_same ho] at ho'
      cases ho'
      exact ⟨o, rfl, hk o⟩
  · rw [modify_ne hij] at ho'
    exact ⟨o', ho', fun k d hd => Or.inl ⟨d, hd⟩⟩

theorem Keys.writeComps {i c : Id'} (hc : S c) (ix : List Int) (a : Arr K) :
    Keys t S (PyOGRe.writeComps i c ix a) fun _ => True := by
  unfold PyOGRe.writeComps
  refine Keys.bind (Keys.getObj _) fun o _ => Keys.bind (Keys.lookup _ _) fun d _ => Keys.modify (fun _ => rfl) ?_
  intro o k d' hd
  rcases mem_set hd with h | h
  · exact Or.inl h
  · exact Or.inr (h ▸ hc)

theorem Keys.ensureCoords {i c : Id'} (hc : S c) : Keys t S (K := K) (PyOGRe.ensureCoords i c) fun _ => True := by
  unfold PyOGRe.ensureCoords
  refine Keys.modify (fun o => by split_ifs <;> rfl) fun o k d hd => ?_
  split_ifs at hd
  · exact Or.inl ⟨d, hd⟩
  · rcases mem_set hd with h | h
    · exact Or.inl h
    · exact Or.inr (h ▸ hc)

variable [CommRing K] {E : Engine K}

theorem Keys.checkJacobians (i c : Id') : Keys t S (checkJacobians E i c) fun _ => True := by
  unfold PyOGRe.checkJacobians calcJacobian
  refine Keys.bind (Keys.getObj _) fun _ _ => Keys.ite (Keys.pure _) (Keys.ite ?_ ?_)
  · exact Keys.bind (Keys.getObj _) fun _ _ => Keys.bind (Keys.getObj _) fun _ _ =>
      Keys.bind (Keys.lookup _ _) fun _ _ => Keys.bind (Keys.lift _) fun _ _ =>
      Keys.modify (fun _ => rfl) fun o k d hd => Or.inl ⟨d, hd⟩
  · exact Keys.bind (Keys.getObj _) fun _ _ => Keys.raise

theorem Keys.baseTransform {i c : Id'} (hc : S c) (ix : List Int) : Keys t S (baseTransform E i c ix) fun _ => True := by
  unfold PyOGRe.baseTransform
  exact Keys.bind (Keys.getObj _) fun _ _ => Keys.bind (Keys.checkJacobians _ _) fun _ _ =>
    Keys.bind (Keys.readComps _ _ _) fun _ _ => Keys.bind (Keys.getObj _) fun _ _ =>
    Keys.bind (Keys.lookup _ _) fun _ _ => Keys.bind (Keys.lookup _ _) fun _ _ =>
    Keys.bind (Keys.lift _) fun _ _ => Keys.bind (Keys.ensureCoords hc) fun _ _ => Keys.writeComps hc _ _

theorem Keys.metricTransform {i c : Id'} (hc : S c) (ix : List Int) :
    Keys t S (metricTransform E i c ix) fun _ => True := by
  unfold PyOGRe.metricTransform
  exact Keys.bind (Keys.baseTransform hc _) fun _ _ => Keys.bind (Keys.getObj _) fun _ _ =>
    Keys.bind (Keys.readComps _ _ _) fun _ _ => Keys.bind (Keys.lift _) fun _ _ =>
    Keys.bind (Keys.writeComps hc _ _) fun _ _ => Keys.bind (Keys.readComps _ _ _) fun _ _ =>
    Keys.bind (Keys.readComps _ _ _) fun _ _ => Keys.bind (Keys.lift _) fun _ _ =>
    Keys.bind (Keys.writeComps hc _ _) fun _ _ => Keys.bind (Keys.readComps _ _ _) fun _ _ =>
    Keys.bind (Keys.readComps _ _ _) fun _ _ => Keys.bind (Keys.lift _) fun _ _ => Keys.writeComps hc _ _

theorem Keys.metricCheck (i c : Id') : Keys t S (K := K) (metricCheck i c) fun _ => True := by
  unfold PyOGRe.metricCheck
  exact Keys.bind (Keys.getObj _) fun _ _ => Keys.pure _

theorem Keys.tensorRaiseLower {i c : Id'} (hc : S c) (ix : List Int) :
    Keys t S (tensorRaiseLower E i c ix) fun _ => True := by
  unfold PyOGRe.tensorRaiseLower
  refine Keys.bind (Keys.getObj _) fun _ _ => Keys.bind (Keys.metricCheck _ _) fun _ _ =>
    Keys.bind (Keys.onlyIf (Keys.metricTransform hc _)) fun _ _ => Keys.bind (Keys.getObj _) fun _ _ =>
    Keys.bind (Keys.lookup _ _) fun d _ => ?_
  match d with
  | [] => exact Keys.raise
  | (s, b) :: d =>
    exact Keys.bind (Keys.readComps _ _ _) fun _ _ => Keys.bind (Keys.readComps _ _ _) fun _ _ =>
      Keys.bind (Keys.lift _) fun _ _ => Keys.writeComps hc _ _

theorem Keys.tensorCheck {i c : Id'} (hc : S c) (ix : List Int) : Keys t S (tensorCheck E i c ix) fun _ => True := by
  unfold PyOGRe.tensorCheck
  refine Keys.bind (Keys.getObj _) fun o _ => ?_
  cases o.comps.get? c with
  | none => exact Keys.pure _
  | some d => exact Keys.bind (Keys.onlyIf (Keys.tensorRaiseLower hc _)) fun _ _ => Keys.pure _

theorem Keys.tensorTransform {c : Id'} (hc : S c) (ix : List Int) : Keys t S (tensorTransform E t c ix) fun _ => True := by
  unfold PyOGRe.tensorTransform
  exact Keys.bind Keys.self fun o ho => Keys.bind (Keys.tensorCheck ho _) fun _ _ =>
    Keys.bind (Keys.onlyIf (Keys.tensorRaiseLower ho _)) fun _ _ => Keys.baseTransform hc _

theorem Keys.christoffelTransform {i c : Id'} (hc : S c) (ix : List Int) :
    Keys t S (christoffelTransform E i c ix) fun _ => True := by
  unfold PyOGRe.christoffelTransform
  exact Keys.bind (Keys.getObj _) fun _ _ => Keys.bind (Keys.checkJacobians _ _) fun _ _ =>
    Keys.bind (Keys.getObj _) fun _ _ => Keys.bind (Keys.readComps _ _ _) fun _ _ =>
    Keys.bind (Keys.lookup _ _) fun _ _ => Keys.bind (Keys.lookup _ _) fun _ _ =>
    Keys.bind (Keys.lift _) fun _ _ => Keys.bind (Keys.ensureCoords hc) fun _ _ => Keys.writeComps hc _ _

theorem Keys.checkRepresentation {i c : Id'} (hc : S c) (ix : List Int) :
    Keys t S (checkRepresentation E i c ix) fun _ => True := by
  unfold PyOGRe.checkRepresentation
  refine Keys.bind (Keys.getObj _) fun o _ => ?_
  cases o.kind <;> first | exact Keys.metricCheck _ _ | exact Keys.tensorCheck hc _

theorem Keys.transformCoordinates {c : Id'} (hc : S c) (ix : List Int) :
    Keys t S (transformCoordinates E t c ix) fun _ => True := by
  unfold PyOGRe.transformCoordinates
  refine Keys.bind (Keys.getObj _) fun o _ => ?_
  cases o.kind <;> first | exact Keys.metricTransform hc _ | exact Keys.christoffelTransform hc _ |
    exact Keys.tensorTransform hc _

theorem Keys.isCoordinates (c : Id') : Keys t S (K := K) (PyOGRe.isCoordinates c) fun _ => True :=
  fun w _ => ⟨Frame.refl w, NewKeys.refl S w, fun _ _ => trivial⟩

theorem Keys.getComponents (c : Option Id') (hc : ∀ x, c = some x → S x) (ix : Option (List Int)) :
    Keys t S (PyOGRe.getComponents E t c ix) fun _ => True := by
  unfold PyOGRe.getComponents getRepresentation
  refine Keys.bind Keys.self fun o ho => ?_
  have hk : S (c.getD o.coords) := by
    cases c with
    | none => exact ho
    | some x => exact hc x rfl
  exact Keys.bind (Keys.isCoordinates _) fun _ _ => Keys.ite Keys.raise (Keys.bind (Keys.getObj _) fun _ _ =>
    Keys.bind (Keys.lift _) fun _ _ => Keys.bind (Keys.checkRepresentation hk _) fun _ _ =>
    Keys.bind (Keys.onlyIf (Keys.transformCoordinates hk _)) fun _ _ => Keys.readComps _ _ _)

end

/-- Object `t` is not a coordinate system. -/
def Tensorial (w : World K) (t : Id') : Prop := ∀ o, w.objs[t]? = some o → o.kind ≠ .coordinates

/-- The session is in order: registered objects are not deleted and refer only to registered objects, and no
metric is a coordinate system. -/
structure Tidy (w : World K) : Prop where
  sound : Sound w
  closed : ∀ i ∈ w.instances, ∀ o, w.objs[i]? = some o → ∀ t, Refers o t → t ∈ w.instances
  typed : ∀ i ∈ w.instances, ∀ o, w.objs[i]? = some o → o.kind ≠ .coordinates → Tensorial w o.metric

/-- A tensor that, unless deleted, refers only to registered objects. -/
structure Fine (w : World K) (t : Id') : Prop where
  lt : t < w.objs.length
  tensor : Tensorial w t
  refs : ∀ o, w.objs[t]? = some o → o.alive = true → (∀ s, Refers o s → s ∈ w.instances) ∧ Tensorial w o.metric

/-- A tensor that is registered or deleted. -/
structure Good (w : World K) (t : Id') : Prop where
  lt : t < w.objs.length
  tensor : Tensorial w t
  or : t ∈ w.instances ∨ ¬ InUse w t

theorem Good.fine (h : Tidy w) {t : Id'} (ht : Good w t) : Fine w t :=
  ⟨ht.lt, ht.tensor, fun o ho ha => by
    rcases ht.or with h1 | h1
    · exact ⟨fun s hs => h.closed t h1 o ho s hs, h.typed t h1 o ho (ht.tensor o ho)⟩
    · exact absurd ⟨o, ho, ha⟩ h1⟩

theorem Tidy.good (h : Tidy w) {t : Id'} (ht : t ∈ w.instances) (hk : Tensorial w t) : Good w t :=
  ⟨sound_lt h.sound ht, hk, Or.inl ht⟩

/-- Classes do not change. -/
def SameKinds (w w' : World K) : Prop :=
  w.objs.length ≤ w'.objs.length ∧ ∀ t < w.objs.length, ∀ o', w'.objs[t]? = some o' →
    ∃ o, w.objs[t]? = some o ∧ o'.kind = o.kind

theorem SameKinds.tensor (h : SameKinds w w') {t : Id'} (ht : t < w.objs.length) (hk : Tensorial w t) :
    Tensorial w' t := by
  intro o' ho'
  obtain ⟨o, h1, h2⟩ := h.2 t ht o' ho'
  rw [h2]
  exact hk o h1

theorem SameKinds.tensor_back (h : SameKinds w w') {t : Id'} (ht : t < w.objs.length) (hk : Tensorial w' t) :
    Tensorial w t := by
  intro o ho
  have hlt : t < w'.objs.length := lt_of_lt_of_le ht h.1
  obtain ⟨o1, h1, h2⟩ := h.2 t ht w'.objs[t] (List.getElem?_eq_getElem hlt)
  rw [ho] at h1
  cases h1
  rw [← h2]
  exact hk _ (List.getElem?_eq_getElem hlt)

theorem SameKinds.refl (w : World K) : SameKinds w w := ⟨le_rfl, fun _ _ o h => ⟨o, h, rfl⟩⟩
theorem SameKinds.trans (h : SameKinds w w') (h' : SameKinds w' w'') : SameKinds w w'' := by
  refine ⟨le_trans h.1 h'.1, fun t ht o'' ho'' => ?_⟩
  obtain ⟨o', h1, h2⟩ := h'.2 t (lt_of_lt_of_le ht h.1) o'' ho''
  obtain ⟨o, h3, h4⟩ := h.2 t ht o' h1
  exact ⟨o, h3, h2.trans h4⟩

/-- From `w` to `w'` nothing was deleted. -/
structure Grows (w w' : World K) : Prop where
  kinds : SameKinds w w'
  inst : ∀ i ∈ w.instances, i ∈ w'.instances
  inUse : ∀ t < w.objs.length, (InUse w' t ↔ InUse w t)
  fine : ∀ t, Fine w t → Fine w' t

/-- From `w` to `w'` objects may have been deleted. -/
structure Kept (w w' : World K) : Prop where
  kinds : SameKinds w w'
  reg : ∀ t < w.objs.length, (t ∈ w.instances ∨ ¬ InUse w t) → (t ∈ w'.instances ∨ ¬ InUse w' t)

theorem Kept.good (h : Kept w w') (t : Id') (ht : Good w t) : Good w' t :=
  ⟨lt_of_lt_of_le ht.lt h.kinds.1, h.kinds.tensor ht.lt ht.tensor, h.reg t ht.lt ht.or⟩

theorem Grows.refl (w : World K) : Grows w w := ⟨SameKinds.refl w, fun _ h => h, fun _ _ => Iff.rfl, fun _ h => h⟩
theorem Grows.trans (h : Grows w w') (h' : Grows w' w'') : Grows w w'' :=
  ⟨h.kinds.trans h'.kinds, fun i hi => h'.inst i (h.inst i hi),
    fun t ht => (h'.inUse t (lt_of_lt_of_le ht h.kinds.1)).trans (h.inUse t ht), fun t ht => h'.fine t (h.fine t ht)⟩
theorem Grows.good (h : Grows w w') {t : Id'} (ht : Good w t) : Good w' t :=
  ⟨lt_of_lt_of_le ht.lt h.kinds.1, h.kinds.tensor ht.lt ht.tensor,
    ht.or.imp (h.inst t) fun h1 h2 => h1 ((h.inUse t ht.lt).1 h2)⟩
theorem Grows.kept (h : Grows w w') : Kept w w' :=
  ⟨h.kinds, fun t ht hr => hr.imp (h.inst t) fun h1 h2 => h1 ((h.inUse t ht).1 h2)⟩
theorem Kept.refl (w : World K) : Kept w w := ⟨SameKinds.refl w, fun _ _ h => h⟩
theorem Kept.trans (h : Kept w w') (h' : Kept w' w'') : Kept w w'' :=
  ⟨h.kinds.trans h'.kinds, fun t ht hr => h'.reg t (lt_of_lt_of_le ht h.kinds.1) (h.reg t ht hr)⟩

/-- `m` deletes nothing and leaves the session in order. -/
def Ok (m : PyM K α) (w : World K) (Q : α → World K → Prop) : Prop :=
  Grows w (m w).2 ∧ Tidy (m w).2 ∧ ∀ a, (m w).1 = .ok a → Q a (m w).2

/-- `m` leaves the session in order. -/
def Okd (m : PyM K α) (w : World K) (Q : α → World K → Prop) : Prop :=
  Kept w (m w).2 ∧ Tidy (m w).2 ∧ ∀ a, (m w).1 = .ok a → Q a (m w).2

theorem Ok.okd {m : PyM K α} {Q : α → World K → Prop} (h : Ok m w Q) : Okd m w Q := ⟨h.1.kept, h.2⟩

theorem Ok.bind {m : PyM K α} {f : α → PyM K β} {P : α → World K → Prop} {Q : β → World K → Prop} (hm : Ok m w P)
    (hf : ∀ a w', Grows w w' → Tidy w' → P a w' → Ok (f a) w' Q) : Ok (m >>= f) w Q := by
  obtain ⟨h1, h2, h3⟩ := hm
  unfold Ok
  rw [PyM.bind_apply]
  rcases h : m w with ⟨r, w'⟩
  rw [h] at h1 h2 h3
  cases r with
  | ok a =>
    obtain ⟨k1, k2, k3⟩ := hf a w' h1 h2 (h3 a rfl)
    exact ⟨h1.trans k1, k2, k3⟩
  | error e => exact ⟨h1, h2, fun _ h => nomatch h⟩

theorem Okd.bind {m : PyM K α} {f : α → PyM K β} {P : α → World K → Prop} {Q : β → World K → Prop} (hm : Okd m w P)
    (hf : ∀ a w', Kept w w' → Tidy w' → P a w' → Okd (f a) w' Q) : Okd (m >>= f) w Q := by
  obtain ⟨h1, h2, h3⟩ := hm
  unfold Okd
  rw [PyM.bind_apply]
  rcases h : m w with ⟨r, w'⟩
  rw [h] at h1 h2 h3
  cases r with
  | ok a =>
    obtain ⟨k1, k2, k3⟩ := hf a w' h1 h2 (h3 a rfl)
    exact ⟨h1.trans k1, k2, k3⟩
  | error e => exact ⟨h1, h2, fun _ h => nomatch h⟩

/-- The first part deletes nothing. -/
theorem Ok.bindd {m : PyM K α} {f : α → PyM K β} {P : α → World K → Prop} {Q : β → World K → Prop} (hm : Ok m w P)
    (hf : ∀ a w', Grows w w' → Tidy w' → P a w' → Okd (f a) w' Q) : Okd (m >>= f) w Q := by
  obtain ⟨h1, h2, h3⟩ := hm
  unfold Okd
  rw [PyM.bind_apply]
  rcases h : m w with ⟨r, w'⟩
  rw [h] at h1 h2 h3
  cases r with
  | ok a =>
    obtain ⟨k1, k2, k3⟩ := hf a w' h1 h2 (h3 a rfl)
    exact ⟨h1.kept.trans k1, k2, k3⟩
  | error e => exact ⟨h1.kept, h2, fun _ h => nomatch h⟩

section
variable (hw : Tidy w)
include hw

theorem Ok.pure {a : α} {Q : α → World K → Prop} (h : Q a w) : Ok (Pure.pure a : PyM K α) w Q :=
  ⟨Grows.refl w, hw, fun b hb => by cases hb; exact h⟩
theorem Ok.raise {e : PyErr} {Q : α → World K → Prop} : Ok (PyM.raise e : PyM K α) w Q :=
  ⟨Grows.refl w, hw, fun b hb => nomatch hb⟩
theorem Ok.lift (x : Py α) : Ok (PyM.lift x : PyM K α) w fun a _ => x = .ok a := ⟨Grows.refl w, hw, fun _ h => h⟩
theorem Ok.getObj (i : Id') : Ok (PyOGRe.getObj i) w fun o w' => w' = w ∧ w.objs[i]? = some o ∧ o.alive = true := by
  unfold Ok
  rcases getObj_cases i w with ⟨o, h1, h2, h⟩ | h <;> rw [h]
  · exact ⟨Grows.refl w, hw, fun a ha => by cases ha; exact ⟨rfl, h1, h2⟩⟩
  · exact ⟨Grows.refl w, hw, fun a ha => nomatch ha⟩

omit hw in
theorem Ok.ite {b : Prop} [Decidable b] {m m' : PyM K α} {Q : α → World K → Prop} (h : Ok m w Q) (h' : Ok m' w Q) :
    Ok (if b then m else m') w Q := by split_ifs <;> assumption
omit hw in
theorem Okd.ite {b : Prop} [Decidable b] {m m' : PyM K α} {Q : α → World K → Prop} (h : Okd m w Q) (h' : Okd m' w Q) :
    Okd (if b then m else m') w Q := by split_ifs <;> assumption
omit hw in
theorem Ok.mono {m : PyM K α} {P Q : α → World K → Prop} (h : Ok m w P) (hPQ : ∀ a, P a (m w).2 → Q a (m w).2) :
    Ok m w Q := ⟨h.1, h.2.1, fun a ha => hPQ a (h.2.2 a ha)⟩

omit hw in
theorem Okd.mono {m : PyM K α} {P Q : α → World K → Prop} (h : Okd m w P) (hPQ : ∀ a w', Tidy w' → P a w' → Q a w') :
    Okd m w Q := ⟨h.1, h.2.1, fun a ha => hPQ a _ h.2.1 (h.2.2 a ha)⟩

/-- New keys of stored components that are registered. -/
theorem ok_frame (hf : Frame w w') (hk : NewKeys (· ∈ w.instances) w w') : Grows w w' ∧ Tidy w' := by
  have hlen : w'.objs.length = w.objs.length := by
    have := congrArg List.length hf.1
    simpa using this
  have hrefs : ∀ (i : Nat) o', w'.objs[i]? = some o' → ∃ o, w.objs[i]? = some o ∧ o'.alive = o.alive ∧
      o'.kind = o.kind ∧ o'.metric = o.metric ∧ ∀ s, Refers o' s → Refers o s ∨ s ∈ w.instances := by
    intro i o' ho'
    obtain ⟨o, h1, h2⟩ := hk i o' ho'
    obtain ⟨o1, e1, e2⟩ := hf.get h1
    rw [ho'] at e1; cases e1
    have k1 : o'.kind = o.kind := congrArg (·.1) e2
    have k2 : o'.coords = o.coords := congrArg (·.2.2.2.2.1) e2
    have k3 : o'.metric = o.metric := congrArg (·.2.2.2.2.2.1) e2
    have k4 : o'.trans = o.trans := congrArg (·.2.2.2.2.2.2.2.1) e2
    refine ⟨o, h1, congrArg (·.2.2.2.2.2.2.2.2) e2, k1, k3, fun s hs => ?_⟩
    unfold Refers at hs
    rw [k1, k2, k3, k4] at hs
    rcases hs with hs | ⟨h3, hs | hs | ⟨d, hd⟩⟩
    · exact Or.inl (Or.inl hs)
    · exact Or.inl (Or.inr ⟨h3, Or.inl hs⟩)
    · exact Or.inl (Or.inr ⟨h3, Or.inr (Or.inl hs)⟩)
    · rcases h2 s d hd with h4 | h4
      · exact Or.inl (Or.inr ⟨h3, Or.inr (Or.inr h4)⟩)
      · exact Or.inr h4
  have hkinds : SameKinds w w' := ⟨le_of_eq hlen.symm, fun t _ o' ho' => by
    obtain ⟨o, e1, -, e2, -⟩ := hrefs t o' ho'
    exact ⟨o, e1, e2⟩⟩
  have htyped : ∀ t, Tensorial w t → Tensorial w' t := fun t ht o' ho' => by
    obtain ⟨o, e1, -, e2, -⟩ := hrefs t o' ho'
    rw [e2]
    exact ht o e1
  refine ⟨⟨hkinds, fun i hi => hf.2 ▸ hi, fun t _ => ?_, fun t ht => ?_⟩, sound_frame hw.sound hf, ?_, ?_⟩
  · constructor
    · rintro ⟨o', h1, h2⟩
      obtain ⟨o, e1, e2, -⟩ := hrefs t o' h1
      exact ⟨o, e1, e2 ▸ h2⟩
    · rintro ⟨o, h1, h2⟩
      obtain ⟨o', e1, e2⟩ := hf.get h1
      exact ⟨o', e1, (congrArg (·.2.2.2.2.2.2.2.2) e2).trans h2⟩
  · refine ⟨hlen ▸ ht.lt, htyped t ht.tensor, fun o' ho' ha => ?_⟩
    obtain ⟨o, e1, e2, e3, e4, e5⟩ := hrefs t o' ho'
    obtain ⟨k1, k2⟩ := ht.refs o e1 (e2 ▸ ha)
    rw [hf.2, e4]
    exact ⟨fun s hs => (e5 s hs).elim (k1 s) id, htyped _ k2⟩
  · intro i hi o' ho' s hs
    rw [hf.2] at hi ⊢
    obtain ⟨o, e1, e2, e3, e4, e5⟩ := hrefs i o' ho'
    exact (e5 s hs).elim (hw.closed i hi o e1 s) id
  · intro i hi o' ho' hk
    rw [hf.2] at hi
    obtain ⟨o, e1, e2, e3, e4, e5⟩ := hrefs i o' ho'
    rw [e4]
    exact htyped _ (hw.typed i hi o e1 (e3 ▸ hk))

theorem Ok.keys {t : Id'} {m : PyM K α} {Q : α → Prop} (h : Keys t (· ∈ w.instances) m Q)
    (ht : Fine w t) : Ok m w fun a _ => Q a := by
  obtain ⟨h1, h2, h3⟩ := h w fun o ho ha =>
    (ht.refs o ho ha).1 _ (Or.inr ⟨ht.tensor o ho, Or.inr (Or.inl rfl)⟩)
  obtain ⟨h4, h5⟩ := ok_frame hw h1 h2
  exact ⟨h4, h5, h3⟩

/-- Reading without keys. -/
theorem Ok.steady {m : PyM K α} (h : ∀ w, (m w).2 = w) : Ok m w fun a w' => w' = w ∧ (m w).1 = .ok a := by
  unfold Ok
  rw [h w]
  exact ⟨Grows.refl w, hw, fun a ha => ⟨rfl, ha⟩⟩

/-- Registering an object that refers to registered ones (and perhaps itself). -/
theorem Ok.register {f : Id' → Obj K} (ha : ∀ i, (f i).alive = true)
    (hr : ∀ s, Refers (f w.objs.length) s → s ∈ w.instances ∨ s = w.objs.length)
    (ht : (f w.objs.length).kind ≠ .coordinates →
      (f w.objs.length).metric = w.objs.length ∨ Tensorial w (f w.objs.length).metric ∧
        (f w.objs.length).metric < w.objs.length) :
    Ok (PyOGRe.register f) w fun i w' => i = w.objs.length ∧ i ∈ w'.instances ∧
      w'.objs[i]? = some (f i) := by
  have hold : ∀ (i : Nat) o', (w.objs ++ [f w.objs.length])[i]? = some o' →
      w.objs[i]? = some o' ∨ i = w.objs.length ∧ o' = f w.objs.length := by
    intro i o' h
    rcases lt_trichotomy i w.objs.length with hi | hi | hi
    · rw [List.getElem?_append_left hi] at h
      exact Or.inl h
    · subst hi
      rw [getElem?_append_length] at h
      exact Or.inr ⟨rfl, (Option.some.inj h).symm⟩
    · rw [List.getElem?_eq_none (by simp; omega)] at h
      cases h
  have htens : ∀ t < w.objs.length, Tensorial w t →
      Tensorial ⟨w.objs ++ [f w.objs.length], w.instances ++ [w.objs.length]⟩ t := by
    intro t hlt ht o' ho'
    rcases hold t o' ho' with h | ⟨h, -⟩
    · exact ht o' h
    · omega
  refine ⟨⟨⟨by simp [PyOGRe.register], fun t hlt o' ho' => ?_⟩, fun i hi => ?_, fun t hlt => ?_, fun t hft => ?_⟩,
    ⟨sound_append hw.sound (ha _), ?_, ?_⟩, fun a h => ?_⟩
  · rcases hold t o' ho' with h | ⟨h, -⟩
    · exact ⟨o', h, rfl⟩
    · omega
  · exact List.mem_append_left _ hi
  · constructor
    · rintro ⟨o', h1, h2⟩
      rcases hold t o' h1 with h | ⟨h, -⟩
      · exact ⟨o', h, h2⟩
      · omega
    · rintro ⟨o, h1, h2⟩
      exact ⟨o, getElem?_append_old h1, h2⟩
  · refine ⟨lt_of_lt_of_le hft.lt (by simp [PyOGRe.register]), htens t hft.lt hft.tensor, fun o' ho' hal => ?_⟩
    rcases hold t o' ho' with h | ⟨h, -⟩
    · obtain ⟨k1, k2⟩ := hft.refs o' h hal
      have hm := k1 o'.metric (Or.inr ⟨hft.tensor o' h, Or.inl rfl⟩)
      exact ⟨fun s hs => List.mem_append_left _ (k1 s hs), htens _ (sound_lt hw.sound hm) k2⟩
    · exact absurd hft.lt (by rw [h]; exact lt_irrefl _)
  · intro i hi o' ho' s hs
    show s ∈ w.instances ++ [w.objs.length]
    rcases hold i o' ho' with h | ⟨h, h'⟩
    · rcases List.mem_append.1 hi with hi | hi
      · exact List.mem_append_left _ (hw.closed i hi o' h s hs)
      · rw [List.mem_singleton] at hi
        exact absurd (lt_of_getElem? h) (by rw [hi]; exact lt_irrefl _)
    · subst h'
      rcases hr s hs with h1 | h1
      · exact List.mem_append_left _ h1
      · simp [h1]
  · intro i hi o' ho' hk
    rcases hold i o' ho' with h | ⟨h, h'⟩
    · rcases List.mem_append.1 hi with hi | hi
      · exact htens _ (sound_lt hw.sound (hw.closed i hi o' h _ (Or.inr ⟨hk, Or.inl rfl⟩))) (hw.typed i hi o' h hk)
      · rw [List.mem_singleton] at hi
        exact absurd (lt_of_getElem? h) (by rw [hi]; exact lt_irrefl _)
    · subst h'
      rcases ht hk with h1 | ⟨h1, h2⟩
      · rw [h1]
        intro o ho
        rcases hold _ o ho with h2 | ⟨-, h2⟩
        · exact absurd (lt_of_getElem? h2) (by omega)
        · rw [h2]; exact hk
      · exact htens _ h2 h1
  · cases h
    exact ⟨rfl, by simp [PyOGRe.register], getElem?_append_length _ _⟩

/-- Tensors with a registered metric, and coordinates that are registered or deleted. -/
theorem Ok.newTensor_obj (kind : Kind) (hk : kind ≠ .coordinates) (name : Arg String) (comps : Arg (Arr K)) {m c : Id'}
    (hm : m ∈ w.instances) (hc : InUse w c → c ∈ w.instances) (ix : IndicesArg) (symbol : Arg String) :
    Ok (newTensor kind name comps m c ix symbol) w fun t w' => Good w' t ∧ t ∈ w'.instances ∧ t = w.objs.length ∧
      c ∈ w.instances ∧ ∃ o, w'.objs[t]? = some o ∧ o.name = name.getD "" ∧ o.kind = kind ∧ o.metric = m ∧
        o.coords = c := by
  unfold PyOGRe.newTensor newBaseTensor
  refine Ok.bind (Ok.steady hw fun w => rfl) ?_
  rintro b _ - - ⟨rfl, hb⟩
  split_ifs with hbm
  · exact Ok.raise hw
  refine Ok.bind (Ok.steady hw fun w => rfl) ?_
  rintro b' _ - - ⟨rfl, -⟩
  split_ifs
  · exact Ok.raise hw
  refine Ok.bind (Ok.getObj hw c) ?_
  rintro oc _ - - ⟨rfl, hoc, hac⟩
  refine Ok.bind (Ok.steady hw fun w => rfl) ?_
  rintro _ _ - - ⟨rfl, -⟩
  rename_i w0
  replace hc := hc ⟨oc, hoc, hac⟩
  have hmm : Tensorial w0 m := by
    intro o ho
    injection hb with hb
    rw [← hb, ho] at hbm
    simp only [Option.any_some, Bool.not_eq_true, Bool.not_eq_false'] at hbm
    intro hc
    rw [hc] at hbm
    simp at hbm
  refine Ok.mono (Ok.register hw (fun _ => rfl) ?_ fun _ => Or.inr ⟨hmm, sound_lt hw.sound hm⟩) ?_
  · rintro s (⟨h, -⟩ | ⟨-, h | h | ⟨d, h⟩⟩)
    · exact absurd h hk
    · exact Or.inl (h ▸ hm)
    · exact Or.inl (h ▸ hc)
    · simp only [List.mem_singleton, Prod.mk.injEq] at h
      exact Or.inl (h.1 ▸ hc)
  · rintro t ⟨h1, h2, h3⟩
    refine ⟨⟨lt_of_getElem? h3, fun o ho => ?_, Or.inl h2⟩, h2, h1, hc, _, h3, rfl, rfl, rfl, rfl⟩
    rw [h3] at ho
    cases ho
    exact hk

/-- Tensors with registered metric and coordinates. -/
theorem Ok.newTensor (kind : Kind) (hk : kind ≠ .coordinates) (name : Arg String) (comps : Arg (Arr K)) {m c : Id'}
    (hm : m ∈ w.instances) (hc : c ∈ w.instances) (ix : IndicesArg) (symbol : Arg String) :
    Ok (newTensor kind name comps m c ix symbol) w fun t w' => Good w' t ∧ t ∈ w'.instances :=
  Ok.mono (Ok.newTensor_obj hw kind hk name comps hm (fun _ => hc) ix symbol) fun _ h => ⟨h.1, h.2.1⟩

end

end PyOGRe
