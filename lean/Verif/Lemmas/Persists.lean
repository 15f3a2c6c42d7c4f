import Verif.Spec.Cache
import Verif.Lemmas.Tidiness

/-! Helper lemmas: requests never change components that are already stored. -/

namespace PyOGRe
open Spec
variable {K : Type} {w w' w'' w0 : World K} {α β : Type}

/-- Only caches change, and nothing is overwritten. -/
def Persists (w w' : World K) : Prop := Frame w w' ∧ ∀ (i : Id') (o o' : Obj K), w.objs[i]? = some o → w'.objs[i]? = some o' →
  ∀ c ix a, stored o c ix = some a → stored o' c ix = some a

/-- Only caches change, and of the components only those of object `i` in coordinates `c`. -/
def Only (i c : Id') (w w' : World K) : Prop := Frame w w' ∧ ∀ (j : Id') (o o' : Obj K), w.objs[j]? = some o →
  w'.objs[j]? = some o' → ∀ c', ¬ (j = i ∧ c' = c) → o'.comps.get? c' = o.comps.get? c'

/-- Nothing is stored for object `i` in coordinates `c`. -/
def Absent (i c : Id') (w : World K) : Prop := ∀ o, w.objs[i]? = some o → o.comps.get? c = none

theorem Persists.refl (w : World K) : Persists w w :=
  ⟨Frame.refl w, fun i o o' h h' c ix a ha => by rw [h] at h'; cases h'; exact ha⟩

theorem Persists.trans (h : Persists w w') (h' : Persists w' w'') : Persists w w'' := by
  refine ⟨h.1.trans h'.1, fun i o o'' ho ho'' c ix a ha => ?_⟩
  obtain ⟨o', ho', -⟩ := h.1.get ho
  exact h'.2 i o' o'' ho' ho'' c ix a (h.2 i o o' ho ho' c ix a ha)

theorem Only.refl (i c : Id') (w : World K) : Only i c w w :=
  ⟨Frame.refl w, fun j o o' h h' c' _ => by rw [h] at h'; cases h'; rfl⟩

theorem Only.trans {i c : Id'} (h : Only i c w w') (h' : Only i c w' w'') : Only i c w w'' := by
  refine ⟨h.1.trans h'.1, fun j o o'' ho ho'' c' hc => ?_⟩
  obtain ⟨o', ho', -⟩ := h.1.get ho
  rw [h'.2 j o' o'' ho' ho'' c' hc, h.2 j o o' ho ho' c' hc]

theorem Persists.only {i c : Id'} (h : Persists w w') (h' : Only i c w' w'') (ha : Absent i c w) : Persists w w'' := by
  refine ⟨h.1.trans h'.1, fun j o o'' ho ho'' c' ix a hs => ?_⟩
  obtain ⟨o', ho', -⟩ := h.1.get ho
  have h1 := h.2 j o o' ho ho' c' ix a hs
  by_cases hc : j = i ∧ c' = c
  · obtain ⟨rfl, rfl⟩ := hc
    unfold stored at hs
    rw [ha o ho] at hs
    cases hs
  · unfold stored
    rw [h'.2 j o' o'' ho' ho'' c' hc]
    exact h1

/-- Computations that write only there. -/
def Wr (i c : Id') (m : PyM K α) : Prop := ∀ w, Only i c w (m w).2

section
variable {i c : Id'}

theorem Wr.bind {m : PyM K α} {f : α → PyM K β} (hm : Wr i c m) (hf : ∀ a, Wr i c (f a)) : Wr i c (m >>= f) := by
  intro w
  have h1 := hm w
  rw [PyM.bind_apply]
  rcases h : m w with ⟨r, w'⟩
  rw [h] at h1
  cases r with
  | ok a => exact h1.trans (hf a w')
  | error e => exact h1

theorem Wr.same {m : PyM K α} (h : ∀ w, (m w).2 = w) : Wr i c m := fun w => by rw [h w]; exact Only.refl i c w
theorem Wr.pure (a : α) : Wr i c (Pure.pure a : PyM K α) := Wr.same fun _ => rfl
theorem Wr.raise (e : PyErr) : Wr i c (PyM.raise e : PyM K α) := Wr.same fun _ => rfl
theorem Wr.lift (x : Py α) : Wr i c (PyM.lift x : PyM K α) := Wr.same fun _ => rfl
theorem Wr.ite {b : Prop} [Decidable b] {m m' : PyM K α} (h : Wr i c m) (h' : Wr i c m') :
    Wr i c (if b then m else m') := by split_ifs <;> assumption

theorem getObj_state (j : Id') (w : World K) : (getObj j w).2 = w := by
  rcases getObj_cases j w with ⟨o, -, -, h⟩ | h <;> rw [h]

theorem lookup_state {A B : Type} [DecidableEq A] (d : Dict A B) (k : A) (w : World K) : (lookup d k w).2 = w := by
  unfold lookup
  cases d.get? k <;> rfl

theorem Wr.getObj (j : Id') : Wr i c (K := K) (PyOGRe.getObj j) := Wr.same (getObj_state j)
theorem Wr.lookup {A B : Type} [DecidableEq A] (d : Dict A B) (k : A) : Wr i c (K := K) (PyOGRe.lookup d k) :=
  Wr.same (lookup_state d k)
theorem Wr.readComps (j c' : Id') (ix : List Int) : Wr i c (K := K) (PyOGRe.readComps j c' ix) :=
  Wr.bind (Wr.getObj _) fun _ => Wr.bind (Wr.lookup _ _) fun _ => Wr.lookup _ _

theorem Wr.modify {j : Id'} {u : Obj K → Obj K} (hc : ∀ o, (u o).core = o.core)
    (h : ∀ o c', ¬ (j = i ∧ c' = c) → (u o).comps.get? c' = o.comps.get? c') : Wr i c (modifyObj j u) := by
  intro w
  refine ⟨Steady.modifyObj j u hc w, fun k o o' ho ho' c' hk => ?_⟩
  have ho'' : (w.objs.modify j u)[k]? = some o' := ho'
  by_cases hjk : j = k
  · subst hjk
    rw [modify_same ho] at ho''
    cases ho''
    exact h o c' hk
  · rw [modify_ne hjk, ho] at ho''
    cases ho''
    rfl

theorem Wr.writeComps (ix : List Int) (a : Arr K) : Wr i c (PyOGRe.writeComps i c ix a) := by
  unfold PyOGRe.writeComps
  refine Wr.bind (Wr.getObj _) fun _ => Wr.bind (Wr.lookup _ _) fun d => Wr.modify (fun _ => rfl) fun o c' hc => ?_
  show Dict.get? (Dict.set _ _ _) _ = _
  rw [Dict.get?_set, if_neg fun h => hc ⟨rfl, by first | exact h | exact h.symm⟩]

theorem Wr.ensureCoords : Wr i c (K := K) (PyOGRe.ensureCoords i c) := by
  unfold PyOGRe.ensureCoords
  refine Wr.modify (fun o => by split_ifs <;> rfl) fun o c' hc => ?_
  split_ifs
  · rfl
  · show Dict.get? (Dict.set _ _ _) _ = _
    rw [Dict.get?_set, if_neg fun h => hc ⟨rfl, by first | exact h | exact h.symm⟩]

variable [Zero K] [One K] [Add K] [Mul K] {E : Engine K}

theorem Wr.checkJacobians (j c' : Id') : Wr i c (PyOGRe.checkJacobians E j c') := by
  unfold PyOGRe.checkJacobians calcJacobian
  exact Wr.bind (Wr.getObj _) fun _ => Wr.ite (Wr.pure _) (Wr.ite (Wr.bind (Wr.getObj _) fun _ => Wr.bind (Wr.getObj _)
    fun _ => Wr.bind (Wr.lookup _ _) fun _ => Wr.bind (Wr.lift _) fun _ => Wr.modify (fun _ => rfl) fun _ _ _ => rfl)
    (Wr.bind (Wr.getObj _) fun _ => Wr.raise _))

theorem Wr.baseTransform (ix : List Int) : Wr i c (PyOGRe.baseTransform E i c ix) := by
  unfold PyOGRe.baseTransform
  exact Wr.bind (Wr.getObj _) fun _ => Wr.bind (Wr.checkJacobians _ _) fun _ => Wr.bind (Wr.readComps _ _ _) fun _ =>
    Wr.bind (Wr.getObj _) fun _ => Wr.bind (Wr.lookup _ _) fun _ => Wr.bind (Wr.lookup _ _) fun _ =>
    Wr.bind (Wr.lift _) fun _ => Wr.bind Wr.ensureCoords fun _ => Wr.writeComps _ _

theorem Wr.christoffelTransform (ix : List Int) : Wr i c (PyOGRe.christoffelTransform E i c ix) := by
  unfold PyOGRe.christoffelTransform
  exact Wr.bind (Wr.getObj _) fun _ => Wr.bind (Wr.checkJacobians _ _) fun _ => Wr.bind (Wr.getObj _) fun _ =>
    Wr.bind (Wr.readComps _ _ _) fun _ => Wr.bind (Wr.lookup _ _) fun _ => Wr.bind (Wr.lookup _ _) fun _ =>
    Wr.bind (Wr.lift _) fun _ => Wr.bind Wr.ensureCoords fun _ => Wr.writeComps _ _

theorem Wr.metricTransform (ix : List Int) : Wr i c (PyOGRe.metricTransform E i c ix) := by
  unfold PyOGRe.metricTransform
  exact Wr.bind (Wr.baseTransform _) fun _ => Wr.bind (Wr.getObj _) fun _ => Wr.bind (Wr.readComps _ _ _) fun _ =>
    Wr.bind (Wr.lift _) fun _ => Wr.bind (Wr.writeComps _ _) fun _ => Wr.bind (Wr.readComps _ _ _) fun _ =>
    Wr.bind (Wr.readComps _ _ _) fun _ => Wr.bind (Wr.lift _) fun _ => Wr.bind (Wr.writeComps _ _) fun _ =>
    Wr.bind (Wr.readComps _ _ _) fun _ => Wr.bind (Wr.readComps _ _ _) fun _ => Wr.bind (Wr.lift _) fun _ =>
    Wr.writeComps _ _

theorem Wr.curveTransform {C : Curves K} (ix : List Int) : Wr i c (PyOGRe.curveTransform E C i c ix) := by
  unfold PyOGRe.curveTransform
  refine Wr.bind (Wr.getObj _) fun o => ?_
  have h1 : Wr i c (lagrangianTransform E C i c ix) := by
    unfold lagrangianTransform
    exact Wr.bind (Wr.getObj _) fun _ => Wr.bind (Wr.checkJacobians _ _) fun _ => Wr.bind (Wr.readComps _ _ _) fun _ =>
      Wr.bind (Wr.getObj _) fun _ => Wr.bind (Wr.lookup _ _) fun _ => Wr.bind (Wr.lookup _ _) fun _ =>
      Wr.bind (Wr.lift _) fun _ => Wr.bind (Wr.getObj _) fun _ => Wr.bind Wr.ensureCoords fun _ => Wr.writeComps _ _
  have h2 : Wr i c (geodesicTransform E C i c ix) := by
    unfold geodesicTransform
    exact Wr.bind (Wr.getObj _) fun _ => Wr.bind (Wr.checkJacobians _ _) fun _ => Wr.bind (Wr.readComps _ _ _) fun _ =>
      Wr.bind (Wr.getObj _) fun _ => Wr.bind (Wr.lookup _ _) fun _ => Wr.bind (Wr.lookup _ _) fun _ =>
      Wr.bind (Wr.lift _) fun _ => Wr.bind (Wr.getObj _) fun _ => Wr.bind Wr.ensureCoords fun _ => Wr.writeComps _ _
  cases o.kind with
  | lagrangian => exact h1
  | _ => exact h2

end

/-- Computations that overwrite nothing. -/
def Kp (m : PyM K α) : Prop := ∀ w, Persists w (m w).2

theorem kept_bind {m : PyM K α} {f : α → PyM K β} (hm : Persists w0 (m w).2)
    (hf : ∀ a w', m w = (.ok a, w') → Persists w0 w' → Persists w0 (f a w').2) : Persists w0 ((m >>= f) w).2 := by
  rw [PyM.bind_apply]
  rcases h : m w with ⟨r, w'⟩
  rw [h] at hm
  cases r with
  | ok a => exact hf a w' h hm
  | error e => exact hm

theorem Kp.bind {m : PyM K α} {f : α → PyM K β} (hm : Kp m) (hf : ∀ a, Kp (f a)) : Kp (m >>= f) := fun w =>
  kept_bind (hm w) fun a w' _ h => h.trans (hf a w')
theorem Kp.same {m : PyM K α} (h : ∀ w, (m w).2 = w) : Kp m := fun w => by rw [h w]; exact Persists.refl w
theorem Kp.pure (a : α) : Kp (Pure.pure a : PyM K α) := Kp.same fun _ => rfl
theorem Kp.raise (e : PyErr) : Kp (PyM.raise e : PyM K α) := Kp.same fun _ => rfl
theorem Kp.lift (x : Py α) : Kp (PyM.lift x : PyM K α) := Kp.same fun _ => rfl
theorem Kp.ite {b : Prop} [Decidable b] {m m' : PyM K α} (h : Kp m) (h' : Kp m') : Kp (if b then m else m') := by
  split_ifs <;> assumption
theorem Kp.onlyIf {b : Bool} {m : PyM K Unit} (h : Kp m) : Kp (PyM.onlyIf b m) := Kp.ite h (Kp.pure ())
theorem Kp.getObj (j : Id') : Kp (K := K) (PyOGRe.getObj j) := Kp.same (getObj_state j)
theorem Kp.isCoordinates (j : Id') : Kp (K := K) (PyOGRe.isCoordinates j) := Kp.same fun _ => rfl
theorem Kp.isMetric (j : Id') : Kp (K := K) (PyOGRe.isMetric j) := Kp.same fun _ => rfl
theorem Kp.requireTensor (j : Id') : Kp (K := K) (PyOGRe.requireTensor j) := Kp.same fun w => by
  unfold PyOGRe.requireTensor; split_ifs <;> rfl
theorem Kp.lookup {A B : Type} [DecidableEq A] (d : Dict A B) (k : A) : Kp (K := K) (PyOGRe.lookup d k) :=
  Kp.same (lookup_state d k)
theorem Kp.readComps (j c' : Id') (ix : List Int) : Kp (K := K) (PyOGRe.readComps j c' ix) :=
  Kp.bind (Kp.getObj _) fun _ => Kp.bind (Kp.lookup _ _) fun _ => Kp.lookup _ _

/-- Writing a configuration that was not there at the beginning. -/
theorem Persists.write {t c : Id'} {ix : List Int} (h : Persists w w') (hn : ∀ o, w.objs[t]? = some o → stored o c ix = none)
    (a : Arr K) : Persists w (writeComps t c ix a w').2 := by
  have hf := h.1.trans (Steady.writeComps t c ix a w')
  refine ⟨hf, fun j o o2 ho ho2 c' ix' b hs => ?_⟩
  obtain ⟨o1, ho1, -⟩ := h.1.get ho
  have h1 := h.2 j o o1 ho ho1 c' ix' b hs
  unfold writeComps at ho2
  rw [PyM.bind_apply] at ho2
  rcases getObj_cases t w' with ⟨ot, hot, -, e⟩ | e
  · rw [e] at ho2
    dsimp only at ho2
    rw [PyM.bind_apply] at ho2
    unfold lookup at ho2
    cases hd : ot.comps.get? c with
    | none =>
      rw [hd] at ho2
      have : w'.objs[j]? = some o2 := ho2
      rw [ho1] at this; cases this
      exact h1
    | some d =>
      rw [hd] at ho2
      have h2 : (w'.objs.modify t _)[j]? = some o2 := ho2
      by_cases hj : t = j
      · subst hj
        rw [hot] at ho1; cases ho1
        rw [modify_same hot] at h2
        cases h2
        unfold stored at h1 ⊢
        rw [Dict.get?_set]
        by_cases hc : c' = c
        · subst hc
          rw [if_pos rfl]
          rw [hd] at h1
          have hne : ix' ≠ ix := by
            rintro rfl
            rw [hn o ho] at hs
            cases hs
          have hb : d.get? ix' = some b := h1
          show (d.set ix a).get? ix' = some b
          rw [Dict.get?_set, if_neg (by first | exact hne | exact fun h => hne h.symm), hb]
        · rw [if_neg (by first | exact hc | exact fun h => hc h.symm)]
          exact h1
      · rw [modify_ne hj, ho1] at h2
        cases h2
        exact h1
  · rw [e] at ho2
    have : w'.objs[j]? = some o2 := ho2
    rw [ho1] at this; cases this
    exact h1

section
variable [Zero K] [One K] [Add K] [Mul K] {E : Engine K}

/-- A metric is transformed only to coordinates for which nothing is stored. -/
theorem Kp.metric (t c : Id') (ix : List Int) (rest : PyM K α) (hr : ∀ w', Persists w w' → Persists w (rest w').2) :
    Persists w ((do PyM.onlyIf (!(← metricCheck t c)) (metricTransform E t c ix); rest) w).2 := by
  refine kept_bind (m := metricCheck t c) ?_ fun b w' hb hk => ?_
  · exact Kp.bind (Kp.getObj _) (fun _ => Kp.pure _) w
  · have hw : w' = w ∧ (b = false → Absent t c w) := by
      unfold metricCheck at hb
      rw [PyM.bind_apply] at hb
      rcases getObj_cases t w with ⟨o, ho, -, e⟩ | e
      · rw [e] at hb
        cases hb
        refine ⟨rfl, fun hb o' ho' => ?_⟩
        rw [ho] at ho'; cases ho'
        exact (Dict.has_eq_false _ _).1 hb
      · rw [e] at hb; cases hb
    obtain ⟨rfl, ha⟩ := hw
    refine kept_bind ?_ fun _ w1 _ h1 => hr w1 h1
    cases b with
    | true => exact Persists.refl w'
    | false => exact (Persists.refl w').only (Wr.metricTransform _ _) (ha rfl)

theorem kept_raiseLower {t c : Id'} {ix : List Int} (hn : ∀ o, w.objs[t]? = some o → stored o c ix = none) :
    Persists w (tensorRaiseLower E t c ix w).2 := by
  unfold tensorRaiseLower
  refine kept_bind (Kp.getObj t w) fun o w' h _ => ?_
  have hw : w' = w := by have := getObj_state t w; rw [h] at this; exact this
  subst hw
  refine Kp.metric _ _ _ _ fun w1 h1 => ?_
  refine kept_bind (h1.trans (Kp.getObj t w1)) fun o1 w2 _ h2 => ?_
  refine kept_bind (h2.trans (Kp.lookup _ _ w2)) fun d w3 _ h3 => ?_
  cases d with
  | nil => exact h3
  | cons p d =>
    rcases p with ⟨src, comps⟩
    dsimp only
    refine kept_bind (h3.trans (Kp.readComps _ _ _ w3)) fun g w4 _ h4 => ?_
    refine kept_bind (h4.trans (Kp.readComps _ _ _ w4)) fun gi w5 _ h5 => ?_
    refine kept_bind (h5.trans (Kp.lift _ w5)) fun a w6 _ h6 => ?_
    exact h6.write hn a

theorem tensorCheck_kept (t c : Id') (ix : List Int) (w : World K) : Persists w (tensorCheck E t c ix w).2 ∧
    ∀ w', tensorCheck E t c ix w = (.ok false, w') → w' = w ∧ Absent t c w := by
  unfold tensorCheck
  rw [PyM.bind_apply]
  rcases getObj_cases t w with ⟨o, ho, -, e⟩ | e
  · rw [e]
    dsimp only
    cases hd : o.comps.get? c with
    | none =>
      refine ⟨Persists.refl w, fun w' h => ?_⟩
      cases h
      exact ⟨rfl, fun o' ho' => by rw [ho] at ho'; cases ho'; exact hd⟩
    | some d =>
      dsimp only
      constructor
      · refine kept_bind ?_ fun _ w' _ h => h
        cases hh : d.has ix with
        | true => exact Persists.refl w
        | false =>
          refine kept_raiseLower fun o' ho' => ?_
          rw [ho] at ho'; cases ho'
          unfold stored
          rw [hd]
          exact (Dict.has_eq_false _ _).1 hh
      · intro w' h
        rw [PyM.bind_apply] at h
        generalize PyM.onlyIf (!d.has ix) (tensorRaiseLower E t c ix) w = y at h
        rcases y with ⟨r, w1⟩
        cases r <;> cases h
  · rw [e]
    exact ⟨Persists.refl w, fun w' h => by cases h⟩

theorem kept_tensorTransform {t c : Id'} {ix : List Int} (ha : Absent t c w) :
    Persists w (tensorTransform E t c ix w).2 := by
  unfold tensorTransform
  refine kept_bind (Kp.getObj t w) fun o w' h _ => ?_
  have hw : w' = w := by have := getObj_state t w; rw [h] at this; exact this
  subst hw
  refine kept_bind (tensorCheck_kept t o.coords ix w').1 fun b w1 hb h1 => ?_
  refine kept_bind ?_ fun _ w2 _ h2 => h2.only (Wr.baseTransform _ _) ha
  cases b with
  | true => exact h1
  | false =>
    obtain ⟨rfl, hab⟩ := (tensorCheck_kept t o.coords ix w').2 w1 hb
    refine kept_raiseLower fun o' ho' => ?_
    unfold stored
    rw [hab o' ho']
    rfl

theorem checkRepresentation_kept (t c : Id') (ix : List Int) (w : World K) :
    Persists w (checkRepresentation E t c ix w).2 ∧
    ∀ w', checkRepresentation E t c ix w = (.ok false, w') → w' = w ∧ Absent t c w := by
  have hm : Persists w (metricCheck t c w).2 ∧ ∀ w', metricCheck t c w = (.ok false, w') → w' = w ∧ Absent t c w := by
    unfold metricCheck
    rw [PyM.bind_apply]
    rcases getObj_cases t w with ⟨o, ho, -, e⟩ | e
    · rw [e]
      refine ⟨Persists.refl w, fun w' h => ?_⟩
      have h1 : o.comps.has c = false := by injection h with h _; injection h
      have h2 : w' = w := by injection h with _ h; exact h.symm
      exact ⟨h2, fun o' ho' => by rw [ho] at ho'; cases ho'; exact (Dict.has_eq_false _ _).1 h1⟩
    · rw [e]
      exact ⟨Persists.refl w, fun w' h => by cases h⟩
  have ht := tensorCheck_kept (E := E) t c ix w
  unfold checkRepresentation
  rw [PyM.bind_apply]
  rcases getObj_cases t w with ⟨o, ho, -, e⟩ | e
  · rw [e]
    dsimp only
    cases o.kind with
    | metric => exact hm
    | _ => exact ht
  · rw [e]
    exact ⟨Persists.refl w, fun w' h => by cases h⟩

theorem kept_transformCoordinates {t c : Id'} {ix : List Int} (ha : Absent t c w) :
    Persists w (transformCoordinates E t c ix w).2 := by
  unfold transformCoordinates
  refine kept_bind (Kp.getObj t w) fun o w' h _ => ?_
  have hw : w' = w := by have := getObj_state t w; rw [h] at this; exact this
  subst hw
  have h1 : Persists w' (metricTransform E t c ix w').2 := (Persists.refl w').only (Wr.metricTransform _ _) ha
  have h2 : Persists w' (christoffelTransform E t c ix w').2 := (Persists.refl w').only (Wr.christoffelTransform _ _) ha
  have h3 : Persists w' (tensorTransform E t c ix w').2 := kept_tensorTransform ha
  cases o.kind with
  | metric => exact h1
  | christoffel => exact h2
  | _ => exact h3

/-- Components are looked for, and transformed if there are none. -/
theorem kept_represent (t c : Id') (ix : List Int) (rest : PyM K α) (hr : ∀ w', Persists w w' → Persists w (rest w').2) :
    Persists w ((do PyM.onlyIf (!(← checkRepresentation E t c ix)) (transformCoordinates E t c ix); rest) w).2 := by
  have hk := checkRepresentation_kept (E := E) t c ix w
  refine kept_bind (m := checkRepresentation E t c ix) hk.1 fun b w1 hb h1 => ?_
  refine kept_bind ?_ fun _ w2 _ h2 => hr w2 h2
  cases b with
  | true => exact h1
  | false =>
    obtain ⟨rfl, hab⟩ := hk.2 w1 hb
    exact kept_transformCoordinates hab

theorem kept_curve {C : Curves K} (t c : Id') (ix : List Int) (rest : PyM K α) (hr : ∀ w', Persists w w' → Persists w (rest w').2) :
    Persists w ((do PyM.onlyIf (!(← tensorCheck E t c ix)) (curveTransform E C t c ix); rest) w).2 := by
  have hk := tensorCheck_kept (E := E) t c ix w
  refine kept_bind (m := tensorCheck E t c ix) hk.1 fun b w1 hb h1 => ?_
  refine kept_bind ?_ fun _ w2 _ h2 => hr w2 h2
  cases b with
  | true => exact h1
  | false =>
    obtain ⟨rfl, hab⟩ := hk.2 w1 hb
    exact h1.only (Wr.curveTransform _ _) hab

theorem Kp.getRepresentation (t c : Id') (ix : List Int) : Kp (PyOGRe.getRepresentation E t c ix) := by
  unfold PyOGRe.getRepresentation
  refine Kp.bind (Kp.isCoordinates _) fun b => Kp.ite (Kp.raise _) (Kp.bind (Kp.getObj _) fun o => Kp.bind (Kp.lift _) fun _ => ?_)
  exact fun w => kept_represent _ _ _ _ fun w' h => h.trans (Kp.readComps _ _ _ w')

theorem Kp.getComponents (t : Id') (c : Option Id') (ix : Option (List Int)) : Kp (PyOGRe.getComponents E t c ix) :=
  Kp.bind (Kp.getObj _) fun _ => Kp.getRepresentation _ _ _

theorem Kp.curveComponents {C : Curves K} (t : Id') (c : Option Id') (ix : Option (List Int)) :
    Kp (PyOGRe.curveComponents E C t c ix) := by
  unfold PyOGRe.curveComponents curveRepresentation
  refine Kp.bind (Kp.getObj _) fun _ => Kp.bind (Kp.bind (Kp.isCoordinates _) fun b => Kp.ite (Kp.raise _)
    (Kp.bind (Kp.getObj _) fun o => Kp.bind (Kp.lift _) fun _ => ?_)) fun _ => Kp.bind (Kp.getObj _) fun _ => Kp.pure _
  exact fun w => kept_curve _ _ _ _ fun w' h => h.trans (Kp.readComps _ _ _ w')

theorem Kp.lowerComponents (t : Id') (c : Option Id') : Kp (PyOGRe.lowerComponents E t c) := by
  unfold PyOGRe.lowerComponents
  refine Kp.bind ?_ fun b => Kp.ite (Kp.raise _) (Kp.bind (Kp.getObj _) fun o => ?_)
  · cases c with
    | none => exact Kp.pure _
    | some c => exact Kp.isCoordinates _
  · exact fun w => Kp.metric _ _ _ _ fun w' h => h.trans (Kp.bind (Kp.readComps _ _ _) (fun _ => Kp.pure _) w')

end

end PyOGRe
