import Verif.Lemmas.Closed

/-! Helper lemmas: formulae leave the session in order. -/

namespace PyOGRe
open Spec
variable {K : Type} {w w' : World K} {α β : Type}

theorem Ok.read {m : PyM K α} {f : α → PyM K β} {Q : β → World K → Prop} (hw : Tidy w) (hm : (m w).2 = w)
    (hf : ∀ a, (m w).1 = .ok a → Ok (f a) w Q) : Ok (m >>= f) w Q := by
  unfold Ok
  rw [PyM.bind_apply]
  rcases h : m w with ⟨r, w'⟩
  rw [h] at hm hf
  dsimp only at hm
  subst hm
  cases r with
  | ok a => exact hf a rfl
  | error e => exact ⟨Grows.refl w', hw, fun _ h => nomatch h⟩

theorem Okd.read {m : PyM K α} {f : α → PyM K β} {Q : β → World K → Prop} (hw : Tidy w) (hm : (m w).2 = w)
    (hf : ∀ a, (m w).1 = .ok a → Okd (f a) w Q) : Okd (m >>= f) w Q := by
  unfold Okd
  rw [PyM.bind_apply]
  rcases h : m w with ⟨r, w'⟩
  rw [h] at hm hf
  dsimp only at hm
  subst hm
  cases r with
  | ok a => exact hf a rfl
  | error e => exact ⟨Kept.refl w', hw, fun _ h => nomatch h⟩

section
variable {f : Obj K → PyM K β} {Q : β → World K → Prop} (hw : Tidy w)
include hw

theorem getObj_same (i : Id') : (getObj i w).2 = w := by
  rcases getObj_cases i w with ⟨o, -, -, h⟩ | h <;> rw [h]

theorem Ok.obj {i : Id'} (hf : ∀ o, w.objs[i]? = some o → o.alive = true → Ok (f o) w Q) :
    Ok (PyOGRe.getObj i >>= f) w Q := by
  refine Ok.read hw (getObj_same hw i) fun o ho => ?_
  rcases getObj_cases i w with ⟨o', h1, h2, h⟩ | h <;> rw [h] at ho
  · cases ho; exact hf o h1 h2
  · cases ho

theorem Okd.obj {i : Id'} (hf : ∀ o, w.objs[i]? = some o → o.alive = true → Okd (f o) w Q) :
    Okd (PyOGRe.getObj i >>= f) w Q := by
  refine Okd.read hw (getObj_same hw i) fun o ho => ?_
  rcases getObj_cases i w with ⟨o', h1, h2, h⟩ | h <;> rw [h] at ho
  · cases ho; exact hf o h1 h2
  · cases ho

theorem Ok.lifted {x : Py α} {f : α → PyM K β} (hf : ∀ a, Ok (f a) w Q) : Ok (PyM.lift x >>= f) w Q :=
  Ok.read hw rfl fun a _ => hf a
theorem Okd.lifted {x : Py α} {f : α → PyM K β} (hf : ∀ a, Okd (f a) w Q) : Okd (PyM.lift x >>= f) w Q :=
  Okd.read hw rfl fun a _ => hf a
theorem Ok.look {α γ : Type} [DecidableEq α] {d : Dict α γ} {k : α} {f : γ → PyM K β} (hf : ∀ a, Ok (f a) w Q) :
    Ok (PyOGRe.lookup d k >>= f) w Q := by
  refine Ok.read hw ?_ fun a _ => hf a
  unfold PyOGRe.lookup
  cases d.get? k <;> rfl

omit hw in
theorem same_bind {m : PyM K α} {f : α → PyM K β} (hm : (m w).2 = w) (hf : ∀ a, (f a w).2 = w) : ((m >>= f) w).2 = w := by
  rw [PyM.bind_apply]
  rcases h : m w with ⟨r, w'⟩
  rw [h] at hm
  dsimp only at hm
  subst hm
  cases r with
  | ok a => exact hf a
  | error e => rfl

omit hw in
theorem lookup_same {α γ : Type} [DecidableEq α] (d : Dict α γ) (k : α) : (lookup d k w).2 = w := by
  unfold lookup
  cases d.get? k <;> rfl

theorem readComps_same (i c : Id') (ix : List Int) : (readComps i c ix w).2 = w :=
  same_bind (getObj_same hw i) fun _ => same_bind (lookup_same _ _) fun _ => lookup_same _ _

theorem Ok.comps {i c : Id'} {ix : List Int} {f : Arr K → PyM K β} (hf : ∀ a, Ok (f a) w Q) :
    Ok (PyOGRe.readComps i c ix >>= f) w Q := Ok.read hw (readComps_same hw i c ix) fun a _ => hf a

end

/-- The tensor of a labelled tensor. -/
def FineC (w : World K) (x : CalcObj) : Prop := ∀ t, x.tensor = some t → Fine w t
def GoodC (w : World K) (x : CalcObj) : Prop := ∀ t, x.tensor = some t → Good w t

theorem GoodC.fine (hw : Tidy w) {x : CalcObj} (h : GoodC w x) : FineC w x := fun t ht => (h t ht).fine hw
theorem Grows.fineC (h : Grows w w') {x : CalcObj} (hx : FineC w x) : FineC w' x := fun t ht => h.fine t (hx t ht)
theorem Grows.goodC (h : Grows w w') {x : CalcObj} (hx : GoodC w x) : GoodC w' x := fun t ht => h.good (hx t ht)
theorem Kept.goodC (h : Kept w w') {x : CalcObj} (hx : GoodC w x) : GoodC w' x := fun t ht => h.good t (hx t ht)

theorem Fine.coords {t : Id'} (h : Fine w t) {o : Obj K} (ho : w.objs[t]? = some o) (ha : o.alive = true) :
    o.coords ∈ w.instances := (h.refs o ho ha).1 _ (Or.inr ⟨h.tensor o ho, Or.inr (Or.inl rfl)⟩)
theorem Fine.metricIn {t : Id'} (h : Fine w t) {o : Obj K} (ho : w.objs[t]? = some o) (ha : o.alive = true) :
    o.metric ∈ w.instances := (h.refs o ho ha).1 _ (Or.inr ⟨h.tensor o ho, Or.inl rfl⟩)
theorem Fine.metric (hw : Tidy w) {t : Id'} (h : Fine w t) {o : Obj K} (ho : w.objs[t]? = some o) (ha : o.alive = true) :
    Good w o.metric := hw.good (h.metricIn ho ha) (h.refs o ho ha).2

section
variable [CommRing K] {E : Engine K}

theorem Ok.get (hw : Tidy w) {t : Id'} (ht : Fine w t) (c : Option Id') (hc : ∀ x, c = some x → x ∈ w.instances)
    (ix : Option (List Int)) : Ok (PyOGRe.getComponents E t c ix) w fun _ _ => True :=
  Ok.keys hw (Keys.getComponents c hc ix) ht

theorem Ok.getIn (hw : Tidy w) {t c : Id'} (ht : Fine w t) (hc : c ∈ w.instances) (ix : Option (List Int)) :
    Ok (PyOGRe.getComponents E t (some c) ix) w fun _ _ => True :=
  Ok.get hw ht _ (fun x hx => by cases hx; exact hc) ix

theorem Ok.getOwn (hw : Tidy w) {t : Id'} (ht : Fine w t) (ix : Option (List Int)) :
    Ok (PyOGRe.getComponents E t none ix) w fun _ _ => True := Ok.get hw ht _ (fun x hx => by cases hx) ix

theorem Ok.temp (hw : Tidy w) (a : Arr K) {m c : Id'} (hm : m ∈ w.instances) (hc : c ∈ w.instances) (ix : List Int)
    (s : String) : Ok (newTemp a m c ix s) w fun t w' => Good w' t :=
  Ok.mono (Ok.newTensor hw _ (by decide) _ _ hm hc _ _) fun t h => h.1

theorem Ok.traceStep (hw : Tidy w) {t : Id'} (ht : Fine w t) (s : Sym) (labels : List Sym) :
    Ok (traceStep E s t labels) w fun r w' => Fine w' r.1 ∧ (Good w t → Good w' r.1) := by
  unfold PyOGRe.traceStep
  dsimp only
  refine Ok.ite (Ok.raise hw) (Ok.ite ?_ (Ok.pure hw ⟨ht, id⟩))
  refine Ok.obj hw fun o ho ha => Ok.lifted hw fun i0 => Ok.lifted hw fun i1 => ?_
  refine Ok.bind (Ok.getOwn hw ((ht.metric hw ho ha).fine hw) _) fun g w1 g1 hw1 _ => ?_
  refine Ok.bind (Ok.getOwn hw1 (g1.fine t ht) _) fun a w2 g2 hw2 _ => Ok.lifted hw2 fun tr => ?_
  have ht2 := g2.fine t (g1.fine t ht)
  refine Ok.obj hw2 fun o2 ho2 ha2 => ?_
  exact Ok.bind (Ok.temp hw2 _ (ht2.metricIn ho2 ha2) (ht2.coords ho2 ha2) _ _) fun t' w3 g3 hw3 h3 =>
    Ok.pure hw3 ⟨h3.fine hw3, fun _ => h3⟩

theorem Ok.traceLoop (ls : List Sym) : ∀ {w : World K} (_ : Tidy w) {t : Id'} (_ : Fine w t) (labels : List Sym),
    Ok (traceLoop E ls t labels) w fun r w' => Fine w' r.1 ∧ (Good w t → Good w' r.1) := by
  induction ls with
  | nil => exact fun hw t ht labels => Ok.pure hw ⟨ht, id⟩
  | cons s ls ih =>
    intro w hw t ht labels
    exact Ok.bind (Ok.traceStep hw ht s labels) fun r w' g hw' h => Ok.mono (ih hw' h.1 r.2) fun r' h' =>
      ⟨h'.1, fun hg => h'.2 (h.2 hg)⟩

theorem Ok.requireTensor (hw : Tidy w) {t : Id'} {f : Unit → PyM K β} {Q : β → World K → Prop}
    (hf : Tensorial w t → Ok (f ()) w Q) : Ok (PyOGRe.requireTensor t >>= f) w Q := by
  refine Ok.read hw ?_ fun a ha => ?_
  · unfold PyOGRe.requireTensor
    split_ifs <;> rfl
  · refine hf fun o ho hk => ?_
    unfold PyOGRe.requireTensor at ha
    rw [ho] at ha
    simp [hk] at ha

theorem Ok.calcInit (hw : Tidy w) {t : Id'} (ht : Tensorial w t → Fine w t) (labels : List Sym) :
    Ok (calcInit E t labels) w fun x w' => FineC w' x ∧ (Good w t → GoodC w' x) := by
  unfold PyOGRe.calcInit
  refine Ok.requireTensor hw fun hty => ?_
  replace ht := ht hty
  refine Ok.obj hw fun o ho ha => Ok.bind (Ok.getOwn hw ht _) fun a w1 g1 hw1 _ => Ok.lifted hw1 fun _ => ?_
  refine Ok.bind (Ok.traceLoop labels hw1 (g1.fine t ht) labels) fun r w2 g2 hw2 h => Ok.pure hw2 ⟨?_, fun hg => ?_⟩
  · intro t' ht'
    cases ht'
    exact h.1
  · intro t' ht'
    cases ht'
    exact h.2 (g1.good hg)

theorem Ok.calcInitG (hw : Tidy w) {t : Id'} (ht : Tensorial w t → Good w t) (labels : List Sym) :
    Ok (PyOGRe.calcInit E t labels) w fun x w' => GoodC w' x := by
  by_cases hty : Tensorial w t
  · exact Ok.mono (Ok.calcInit hw (fun h => (ht h).fine hw) labels) fun _ h => h.2 (ht hty)
  · unfold PyOGRe.calcInit
    exact Ok.requireTensor hw fun h => absurd h hty

/-- A new temporary tensor with labels. -/
theorem Ok.tempInit (hw : Tidy w) (a : Arr K) {m c : Id'} (hm : m ∈ w.instances) (hc : c ∈ w.instances) (ix : List Int)
    (s : String) (labels : List Sym) :
    Ok (do let t ← newTemp a m c ix s; PyOGRe.calcInit E t labels) w fun x w' => GoodC w' x :=
  Ok.bind (Ok.temp hw a hm hc ix s) fun _ _ _ hw' h => Ok.calcInitG hw' (fun _ => h) labels

theorem Ok.tensorOf (hw : Tidy w) {x : CalcObj} (hx : FineC w x) {f : Id' × Obj K → PyM K β} {Q : β → World K → Prop}
    (hf : ∀ t o, x.tensor = some t → Fine w t → w.objs[t]? = some o → o.alive = true → Ok (f (t, o)) w Q) :
    Ok (PyOGRe.tensorOf x >>= f) w Q := by
  unfold PyOGRe.tensorOf
  cases h : x.tensor with
  | none => exact Ok.raise hw
  | some t =>
    rw [pyM_bind_assoc]
    exact Ok.obj hw fun o ho ha => hf t o h (hx t h) ho ha

theorem Okd.tensorOf (hw : Tidy w) {x : CalcObj} (hx : FineC w x) {f : Id' × Obj K → PyM K β} {Q : β → World K → Prop}
    (hf : ∀ t o, x.tensor = some t → Fine w t → w.objs[t]? = some o → o.alive = true → Okd (f (t, o)) w Q) :
    Okd (PyOGRe.tensorOf x >>= f) w Q := by
  unfold PyOGRe.tensorOf
  cases h : x.tensor with
  | none => exact (Ok.raise hw).okd
  | some t =>
    rw [pyM_bind_assoc]
    exact Okd.obj hw fun o ho ha => hf t o h (hx t h) ho ha

theorem Ok.metricAttr (hw : Tidy w) {x : CalcObj} {f : Option Id' → PyM K β} {Q : β → World K → Prop}
    (hf : ∀ m, Ok (f m) w Q) : Ok (PyOGRe.metricAttr x >>= f) w Q := Ok.read hw rfl fun a _ => hf a

theorem Ok.calcAddObj (hw : Tidy w) {x y : CalcObj} (hx : FineC w x) (hy : FineC w y) :
    Ok (calcAddObj E x y) w fun z w' => GoodC w' z := by
  unfold PyOGRe.calcAddObj
  refine Ok.ite (Ok.raise hw) (Ok.metricAttr hw fun mx => Ok.metricAttr hw fun my => Ok.ite (Ok.raise hw) ?_)
  refine Ok.tensorOf hw hx fun tx ox _ htx hox hax => Ok.tensorOf hw hy fun ty oy _ hty hoy hay => ?_
  refine Ok.ite (Ok.raise hw) (Ok.ite (Ok.raise hw) ?_)
  have hc := htx.coords hox hax
  have hm := htx.metricIn hox hax
  refine Ok.bind (Ok.getIn hw htx hc _) fun a w1 g1 hw1 _ => ?_
  refine Ok.lifted hw1 fun perm => Ok.lifted hw1 fun inv => Ok.lifted hw1 fun ix => ?_
  refine Ok.bind (Ok.getIn hw1 (g1.fine ty hty) (g1.inst _ hc) _) fun b w2 g2 hw2 _ => ?_
  refine Ok.lifted hw2 fun b' => Ok.lifted hw2 fun s => ?_
  exact Ok.tempInit hw2 _ (g2.inst _ (g1.inst _ hm)) (g2.inst _ (g1.inst _ hc)) _ _ _

theorem Ok.defaultComps (hw : Tidy w) {t : Id'} {f : Arr K → PyM K β} {Q : β → World K → Prop} (hf : ∀ a, Ok (f a) w Q) :
    Ok (PyOGRe.defaultComps t >>= f) w Q := by
  refine Ok.read hw ?_ fun a _ => hf a
  unfold PyOGRe.defaultComps
  rw [PyM.bind_apply]
  rcases getObj_cases t w with ⟨o, -, -, h⟩ | h <;> rw [h]
  exact readComps_same hw _ _ _

theorem Ok.calcNeg (hw : Tidy w) {x : CalcObj} (hx : FineC w x) : Ok (calcNeg E x) w fun z w' => GoodC w' z := by
  unfold PyOGRe.calcNeg
  refine Ok.read hw (requireArray_state x w) fun _ _ => Ok.ite (Ok.raise hw) (Ok.tensorOf hw hx fun tx ox _ htx hox hax => Ok.defaultComps hw fun a => ?_)
  exact Ok.tempInit hw _ (htx.metricIn hox hax) (htx.coords hox hax) _ _ _

theorem Ok.scaleBy (hw : Tidy w) {s t : Id'} (hs : Fine w s) (ht : Fine w t) (l : List Sym) :
    Ok (scaleBy E s t l) w fun r w' => r.2.1 ∈ w'.instances ∧ r.2.2.1 ∈ w'.instances := by
  unfold PyOGRe.scaleBy
  refine Ok.obj hw fun o ho ha => Ok.bind (Ok.getIn hw hs (ht.coords ho ha) _) fun v w1 g1 hw1 _ => Ok.comps hw1 fun a => ?_
  exact Ok.pure hw1 ⟨g1.inst _ (ht.metricIn ho ha), g1.inst _ (ht.coords ho ha)⟩

theorem Ok.mulParts (hw : Tidy w) {tx ty : Id'} (hx : Fine w tx) (hy : Fine w ty) (ox oy : Obj K) (lx ly : List Sym) :
    Ok (mulParts E tx ty ox oy lx ly) w fun r w' => r.2.1 ∈ w'.instances ∧ r.2.2.1 ∈ w'.instances := by
  unfold PyOGRe.mulParts
  refine Ok.ite (Ok.ite ?_ (Ok.scaleBy hw hy hx _)) (Ok.scaleBy hw hx hy _)
  exact Ok.bind (Ok.scaleBy hw hx hy _) fun _ w1 g1 hw1 _ => Ok.scaleBy hw1 (g1.fine _ hy) (g1.fine _ hx) _

theorem Ok.calcMul (hw : Tidy w) {x : CalcObj} (hx : FineC w x) (y : CalcArg K)
    (hy : ∀ z, y = .obj z → FineC w z) : Ok (calcMul E x y) w fun z w' => GoodC w' z := by
  cases y with
  | other => exact Ok.ite (Ok.raise hw) (Ok.raise hw)
  | num v =>
    unfold PyOGRe.calcMul
    refine Ok.ite (Ok.raise hw) (Ok.tensorOf hw hx fun tx ox _ htx hox hax => Ok.defaultComps hw fun a => ?_)
    exact Ok.tempInit hw _ (htx.metricIn hox hax) (htx.coords hox hax) _ _ _
  | obj y =>
    unfold PyOGRe.calcMul
    refine Ok.ite (Ok.raise hw) (Ok.tensorOf hw (hy y rfl) fun ty oy _ hty hoy hay =>
      Ok.tensorOf hw hx fun tx ox _ htx hox hax => Ok.ite (Ok.raise hw) ?_)
    exact Ok.bind (Ok.mulParts hw htx hty _ _ _ _) fun r w1 g1 hw1 h => Ok.tempInit hw1 _ h.1 h.2 _ _ _

theorem Ok.matmulTensors (hw : Tidy w) {x y : CalcObj} (hx : FineC w x) (hy : FineC w y) :
    Ok (matmulTensors E x y) w fun z w' => GoodC w' z := by
  unfold PyOGRe.matmulTensors
  refine Ok.metricAttr hw fun mx => Ok.metricAttr hw fun my => Ok.ite (Ok.raise hw) ?_
  refine Ok.tensorOf hw hx fun tx ox _ htx hox hax => Ok.tensorOf hw hy fun ty oy _ hty hoy hay => ?_
  refine Ok.ite (Ok.calcMul hw hx _ fun z hz => by cases hz; exact hy) ?_
  refine Ok.bind (Ok.getIn hw htx (htx.coords hox hax) _) fun a w1 g1 hw1 _ => Ok.lifted hw1 fun ix => ?_
  refine Ok.bind (Ok.getIn hw1 (g1.fine _ hty) (g1.inst _ (hty.coords hoy hay)) _) fun b w2 g2 hw2 _ => ?_
  refine Ok.lifted hw2 fun pairs => Ok.lifted hw2 fun c => ?_
  exact Ok.tempInit hw2 _ (g2.inst _ (g1.inst _ (htx.metricIn hox hax))) (g2.inst _ (g1.inst _ (htx.coords hox hax))) _ _ _

theorem Ok.matmulPartial (hw : Tidy w) (d : List Sym) {y : CalcObj} (hy : FineC w y) (l : List Sym) :
    Ok (matmulPartial E d y l) w fun z w' => GoodC w' z := by
  unfold PyOGRe.matmulPartial
  refine Ok.tensorOf hw hy fun ty oy _ hty hoy hay => Ok.lifted hw fun axis => Ok.lifted hw fun ix => ?_
  refine Ok.bind (Ok.getIn hw hty (hty.coords hoy hay) _) fun b w1 g1 hw1 _ => Ok.obj hw1 fun c _ _ => Ok.lifted hw1 fun r => ?_
  exact Ok.tempInit hw1 _ (g1.inst _ (hty.metricIn hoy hay)) (g1.inst _ (hty.coords hoy hay)) _ _ _

/-- Deleting an object that is not used. -/
theorem deleted_tidy (hw : Tidy w) (t : Id') (hu : ¬ Used w t) (l : List Id') (hl : l = w.instances.erase t) :
    Kept w ⟨w.objs.modify t (fun o => { o with alive := false }), l⟩ ∧
      Tidy ⟨w.objs.modify t (fun o => { o with alive := false }), l⟩ := by
  subst hl
  have hmem : ∀ i, i ∈ w.instances.erase t ↔ i ≠ t ∧ i ∈ w.instances := fun i => List.Nodup.mem_erase_iff hw.sound.nodup
  have hold : ∀ (i : Nat) o', (w.objs.modify t fun o => { o with alive := false })[i]? = some o' →
      ∃ o, w.objs[i]? = some o ∧ o'.kind = o.kind ∧ (i ≠ t → o' = o) ∧ (i = t → o'.alive = false) := by
    intro i o' ho'
    by_cases hit : i = t
    · subst hit
      cases ho : w.objs[i]? with
      | none =>
        rw [List.getElem?_modify, ho] at ho'
        cases ho'
      | some o =>
        rw [modify_same ho] at ho'
        cases ho'
        exact ⟨o, rfl, rfl, fun h => absurd rfl h, fun _ => rfl⟩
    · rw [modify_ne fun h => hit h.symm] at ho'
      exact ⟨o', ho', rfl, fun _ => rfl, fun h => absurd h hit⟩
  have hkinds : SameKinds w ⟨w.objs.modify t (fun o => { o with alive := false }), w.instances.erase t⟩ :=
    ⟨by simp, fun i _ o' ho' => by
      obtain ⟨o, h1, h2, -⟩ := hold i o' ho'
      exact ⟨o, h1, h2⟩⟩
  refine ⟨⟨hkinds, fun i _ hi => ?_⟩, sound_delete hw.sound t, ?_, ?_⟩
  · by_cases hit : i = t
    · right
      rintro ⟨o', h1, h2⟩
      obtain ⟨o, -, -, -, h3⟩ := hold i o' h1
      rw [h3 hit] at h2
      cases h2
    · refine hi.imp (fun h => (hmem i).2 ⟨hit, h⟩) fun h1 => ?_
      rintro ⟨o', h2, h3⟩
      obtain ⟨o, h4, -, h5, -⟩ := hold i o' h2
      exact h1 ⟨o, h4, by rw [← h5 hit]; exact h3⟩
  · intro i hi o' ho' s hs
    obtain ⟨h1, h2⟩ := (hmem i).1 hi
    obtain ⟨o, h3, -, h4, -⟩ := hold i o' ho'
    rw [h4 h1] at hs
    refine (hmem s).2 ⟨?_, hw.closed i h2 o h3 s hs⟩
    rintro rfl
    exact hu ⟨i, h2, h1, o, h3, hs⟩
  · intro i hi o' ho' hk
    obtain ⟨h1, h2⟩ := (hmem i).1 hi
    obtain ⟨o, h3, -, h4, -⟩ := hold i o' ho'
    rw [h4 h1] at hk ⊢
    exact hkinds.tensor (sound_lt hw.sound (hw.closed i h2 o h3 _ (Or.inr ⟨hk, Or.inl rfl⟩))) (hw.typed i h2 o h3 hk)

theorem Okd.delete (hw : Tidy w) (t : Id') : Okd (deleteObj t) w fun _ _ => True := by
  unfold Okd deleteObj
  by_cases hu : Used w t
  · rw [if_pos ((any_uses hw.sound).2 hu)]
    exact ⟨Kept.refl w, hw, fun _ _ => trivial⟩
  · rw [if_neg fun h => hu ((any_uses hw.sound).1 h)]
    dsimp only
    by_cases ht : t ∈ w.instances
    · rw [if_pos ht]
      obtain ⟨h1, h2⟩ := deleted_tidy hw t hu _ rfl
      exact ⟨h1, h2, fun _ _ => trivial⟩
    · rw [if_neg ht]
      obtain ⟨h1, h2⟩ := deleted_tidy hw t hu w.instances (List.erase_of_not_mem ht).symm
      exact ⟨h1, h2, fun _ _ => trivial⟩

theorem Okd.tryDelete (hw : Tidy w) (t : Id') : Okd (tryDelete t) w fun _ _ => True := by
  have h := Okd.delete hw t
  unfold Okd at h ⊢
  unfold PyOGRe.tryDelete
  rcases hd : deleteObj t w with ⟨r, w'⟩
  rw [hd] at h
  refine ⟨?_, ?_, fun _ _ => trivial⟩
  · cases r with
    | ok a => exact h.1
    | error e => cases e <;> exact h.1
  · cases r with
    | ok a => exact h.2.1
    | error e => cases e <;> exact h.2.1

theorem Okd.deletePass {sel : Obj K → Bool} {del : Id' → PyM K Unit}
    (hdel : ∀ {w : World K} (_ : Tidy w) t, Okd (del t) w fun _ _ => True) (hw : Tidy w) :
    Okd (deletePass sel del) w fun _ _ => True := by
  have key : ∀ fuel i {w : World K} (_ : Tidy w), Okd (deleteFrom sel del fuel i) w fun _ _ => True := by
    intro fuel
    induction fuel with
    | zero => exact fun i w hw => (Ok.pure hw trivial).okd
    | succ fuel ih =>
      intro i w hw
      unfold deleteFrom
      refine Okd.read hw rfl fun w0 h0 => ?_
      cases h0
      cases w.instances[i]? with
      | none => exact (Ok.pure hw trivial).okd
      | some t =>
        refine Okd.obj hw fun o ho ha => Okd.bind (P := fun _ _ => True) ?_ fun _ w' _ hw' _ => ih _ hw'
        unfold PyM.onlyIf
        split_ifs
        · exact hdel hw t
        · exact (Ok.pure hw trivial).okd
  exact key _ _ hw

theorem Okd.times {m : PyM K Unit} (hm : ∀ {w : World K} (_ : Tidy w), Okd m w fun _ _ => True) (k : Nat) :
    ∀ {w : World K} (_ : Tidy w), Okd (timesDo m k) w fun _ _ => True := by
  induction k with
  | zero => exact fun hw => (Ok.pure hw trivial).okd
  | succ k ih => exact fun hw => Okd.bind (hm hw) fun _ w' _ hw' _ => ih hw'

theorem Okd.calcResult (hw : Tidy w) {x : CalcObj} (hx : FineC w x) (name symbol : String) (ix : List Sym) :
    Okd (calcResult E x name symbol ix) w fun t w' => Good w' t := by
  unfold PyOGRe.calcResult
  refine Okd.ite (Ok.raise hw).okd (Okd.lifted hw fun perm => Okd.tensorOf hw hx fun tx ox _ htx hox hax => ?_)
  refine Okd.lifted hw fun ix => Ok.bindd (Ok.getIn hw htx (htx.coords hox hax) _) fun a w1 g1 hw1 _ => ?_
  refine Okd.lifted hw1 fun a => Ok.bindd (Ok.newTensor hw1 _ (by decide) _ _ (g1.inst _ (htx.metricIn hox hax))
    (g1.inst _ (htx.coords hox hax)) _ _) fun t w2 g2 hw2 h2 => ?_
  exact Okd.bind (Okd.times (Okd.deletePass fun hw t => Okd.delete hw t) 2 hw2) fun _ w3 g3 hw3 _ =>
    (Ok.pure hw3 (g3.good t h2.1)).okd

theorem Okd.calcResult_new (hw : Tidy w) {x : CalcObj} (hx : FineC w x) (name symbol : String) (ix : List Sym) :
    Okd (PyOGRe.calcResult E x name symbol ix) w fun t w' => Good w' t ∧ w.objs.length ≤ t :=
  let h := Okd.calcResult (E := E) hw hx name symbol ix
  ⟨h.1, h.2.1, fun a ha => ⟨h.2.2 a ha, (Sp.calcResult x name symbol ix w le_rfl).2.2 a ha⟩⟩

variable [DecidableEq K]

theorem Ok.calcAdd (hw : Tidy w) {x : CalcObj} (hx : GoodC w x) (y : CalcArg K)
    (hy : ∀ z, y = .obj z → FineC w z) : Ok (calcAdd E x y) w fun z w' => GoodC w' z := by
  cases y with
  | other => exact Ok.raise hw
  | num v => exact Ok.ite (Ok.pure hw hx) (Ok.raise hw)
  | obj y => exact Ok.calcAddObj hw (hx.fine hw) (hy y rfl)

theorem Ok.calcSub (hw : Tidy w) {x : CalcObj} (hx : GoodC w x) (y : CalcArg K)
    (hy : ∀ z, y = .obj z → FineC w z) : Ok (calcSub E x y) w fun z w' => GoodC w' z := by
  cases y with
  | other => exact Ok.raise hw
  | num v => exact Ok.ite (Ok.pure hw hx) (Ok.raise hw)
  | obj y =>
    unfold PyOGRe.calcSub
    refine Ok.ite (Ok.raise hw) (Ok.tensorOf hw (hx.fine hw) fun tx ox _ htx hox hax => Ok.tensorOf hw (hy y rfl)
      fun ty oy _ hty hoy hay => Ok.ite (Ok.raise hw) (Ok.ite (Ok.raise hw) ?_))
    exact Ok.bind (Ok.calcNeg hw (hy y rfl)) fun z w1 g1 hw1 h =>
      Ok.calcAddObj hw1 (g1.fineC (hx.fine hw)) (h.fine hw1)

/-- Changing an object, new references being registered. -/
theorem Ok.refer (hw : Tidy w) (i : Id') {u : Obj K → Obj K} (h : ∀ o, (u o).kind = o.kind ∧
    (u o).metric = o.metric ∧ (u o).alive = o.alive) (hr : ∀ o s, Refers (u o) s → Refers o s ∨ s ∈ w.instances) :
    Ok (modifyObj i u) w fun _ _ => True := by
  have hrefs : ∀ (j : Nat) o', (w.objs.modify i u)[j]? = some o' → ∃ o, w.objs[j]? = some o ∧ o'.alive = o.alive ∧
      o'.kind = o.kind ∧ o'.metric = o.metric ∧ ∀ s, Refers o' s → Refers o s ∨ s ∈ w.instances := by
    intro j o' ho'
    by_cases hij : i = j
    · subst hij
      cases ho : w.objs[i]? with
      | none =>
        rw [List.getElem?_modify, ho] at ho'
        cases ho'
      | some o =>
        rw [modify_same ho] at ho'
        cases ho'
        exact ⟨o, rfl, (h o).2.2, (h o).1, (h o).2.1, hr o⟩
    · rw [modify_ne hij] at ho'
      exact ⟨o', ho', rfl, rfl, rfl, fun _ h => Or.inl h⟩
  have htens : ∀ t, Tensorial w t → Tensorial ⟨w.objs.modify i u, w.instances⟩ t := by
    intro t ht o' ho'
    obtain ⟨o, h1, -, h2, -⟩ := hrefs t o' ho'
    rw [h2]
    exact ht o h1
  have halive : ∀ t, InUse ⟨w.objs.modify i u, w.instances⟩ t ↔ InUse w t := by
    intro t
    constructor
    · rintro ⟨o', h1, h2⟩
      obtain ⟨o, e1, e2, -⟩ := hrefs t o' h1
      exact ⟨o, e1, e2 ▸ h2⟩
    · rintro ⟨o, h1, h2⟩
      by_cases hit : i = t
      · subst hit
        exact ⟨u o, modify_same h1 u, by rw [(h o).2.2]; exact h2⟩
      · exact ⟨o, by rw [modify_ne hit]; exact h1, h2⟩
  refine ⟨⟨⟨by simp [modifyObj], fun t _ o' ho' => ?_⟩, fun _ h => h, fun t _ => halive t, fun t ht => ?_⟩,
    ⟨⟨hw.sound.nodup, fun j hj => (halive j).2 (hw.sound.inUse j hj)⟩, ?_, ?_⟩, fun _ _ => trivial⟩
  · obtain ⟨o, h1, -, h2, -⟩ := hrefs t o' ho'
    exact ⟨o, h1, h2⟩
  · refine ⟨by simpa [modifyObj] using ht.lt, htens t ht.tensor, fun o' ho' ha => ?_⟩
    obtain ⟨o, e1, e2, e3, e4, e5⟩ := hrefs t o' ho'
    obtain ⟨k1, k2⟩ := ht.refs o e1 (e2 ▸ ha)
    rw [e4]
    exact ⟨fun s hs => (e5 s hs).elim (k1 s) id, htens _ k2⟩
  · intro j hj o' ho' s hs
    obtain ⟨o, e1, e2, e3, e4, e5⟩ := hrefs j o' ho'
    exact (e5 s hs).elim (hw.closed j hj o e1 s) id
  · intro j hj o' ho' hk
    obtain ⟨o, e1, e2, e3, e4, e5⟩ := hrefs j o' ho'
    rw [e4]
    exact htens _ (hw.typed j hj o e1 (e3 ▸ hk))

/-- Changing attributes that are not references. -/
theorem Ok.modify (hw : Tidy w) (i : Id') {u : Obj K → Obj K} (h : ∀ o, (u o).kind = o.kind ∧ (u o).coords = o.coords ∧
    (u o).metric = o.metric ∧ (u o).comps = o.comps ∧ (u o).trans = o.trans ∧ (u o).alive = o.alive) :
    Ok (modifyObj i u) w fun _ _ => True := by
  refine Ok.refer hw i (fun o => ⟨(h o).1, (h o).2.2.1, (h o).2.2.2.2.2⟩) fun o s hs => Or.inl ?_
  obtain ⟨e1, e2, e3, e4, e5, e6⟩ := h o
  unfold Refers at hs ⊢
  rw [e1, e2, e3, e4, e5] at hs
  exact hs

theorem Ok.changeDefaultIndices (hw : Tidy w) {i : Id'} (hi : Fine w i) (ix : List Int) :
    Ok (changeDefaultIndices E i ix) w fun _ _ => True := by
  unfold PyOGRe.changeDefaultIndices
  refine Ok.obj hw fun o ho ha => Ok.lifted hw fun _ => ?_
  refine Ok.bind (Ok.keys hw (Keys.checkRepresentation (hi.coords ho ha) _) hi) fun b w1 g1 hw1 _ => ?_
  unfold PyM.onlyIf
  split_ifs
  · exact Ok.modify hw1 i fun _ => ⟨rfl, rfl, rfl, rfl, rfl, rfl⟩
  · exact Ok.pure hw1 trivial

theorem Ok.copyAs (hw : Tidy w) {t : Id'} (ht : Fine w t) (name : String) :
    Ok (copyAs t name) w fun i w' => Fine w' i := by
  unfold PyOGRe.copyAs
  refine Ok.obj hw fun o ho ha => ?_
  have hold : ∀ (i : Nat) o', (w.objs ++ [{ o with name := name }])[i]? = some o' →
      w.objs[i]? = some o' ∨ i = w.objs.length ∧ o' = { o with name := name } := by
    intro i o' h
    rcases lt_trichotomy i w.objs.length with hi | hi | hi
    · rw [List.getElem?_append_left hi] at h
      exact Or.inl h
    · subst hi
      rw [getElem?_append_length] at h
      exact Or.inr ⟨rfl, (Option.some.inj h).symm⟩
    · rw [List.getElem?_eq_none (by simp; omega)] at h
      cases h
  have htens : ∀ t < w.objs.length, Tensorial w t → Tensorial ⟨w.objs ++ [{ o with name := name }], w.instances⟩ t := by
    intro t hlt ht o' ho'
    rcases hold t o' ho' with h | ⟨h, -⟩
    · exact ht o' h
    · omega
  have hlt : ∀ {i : Id'} {oi : Obj K}, w.objs[i]? = some oi → i < w.objs.length := fun h => lt_of_getElem? h
  refine ⟨⟨⟨by simp, fun s hs o' ho' => ?_⟩, fun _ h => h, fun s hs => ?_, fun s hs => ?_⟩, ⟨⟨hw.sound.nodup, ?_⟩, ?_, ?_⟩,
    fun i hi => ?_⟩
  · rcases hold s o' ho' with h | ⟨h, -⟩
    · exact ⟨o', h, rfl⟩
    · omega
  · constructor
    · rintro ⟨o', h1, h2⟩
      rcases hold s o' h1 with h | ⟨h, -⟩
      · exact ⟨o', h, h2⟩
      · omega
    · rintro ⟨o, h1, h2⟩
      exact ⟨o, getElem?_append_old h1, h2⟩
  · refine ⟨lt_of_lt_of_le hs.lt (by simp), htens s hs.lt hs.tensor, fun o' ho' hal => ?_⟩
    rcases hold s o' ho' with h | ⟨h, -⟩
    · obtain ⟨k1, k2⟩ := hs.refs o' h hal
      exact ⟨k1, htens _ (sound_lt hw.sound (hs.metricIn h hal)) k2⟩
    · exact absurd hs.lt (by rw [h]; exact lt_irrefl _)
  · intro i hi
    obtain ⟨oi, h1, h2⟩ := hw.sound.inUse i hi
    exact ⟨oi, getElem?_append_old h1, h2⟩
  · intro i hi o' ho' s hs
    rcases hold i o' ho' with h | ⟨h, -⟩
    · exact hw.closed i hi o' h s hs
    · exact absurd (sound_lt hw.sound hi) (by rw [h]; exact lt_irrefl _)
  · intro i hi o' ho' hk
    rcases hold i o' ho' with h | ⟨h, -⟩
    · exact htens _ (sound_lt hw.sound (hw.closed i hi o' h _ (Or.inr ⟨hk, Or.inl rfl⟩))) (hw.typed i hi o' h hk)
    · exact absurd (sound_lt hw.sound hi) (by rw [h]; exact lt_irrefl _)
  · cases hi
    refine ⟨by simp, fun o' ho' => ?_, fun o' ho' hal => ?_⟩
    · rcases hold _ o' ho' with h | ⟨-, h⟩
      · exact absurd (hlt h) (lt_irrefl _)
      · rw [h]; exact ht.tensor o ho
    · rcases hold _ o' ho' with h | ⟨-, h⟩
      · exact absurd (hlt h) (lt_irrefl _)
      · rw [h]
        obtain ⟨k1, k2⟩ := ht.refs o ho ha
        exact ⟨fun s hs => k1 s hs, htens o.metric (sound_lt hw.sound (ht.metricIn (o := o) ho ha)) k2⟩

/-- A registered tensor with this metric and coordinates that is not called `TEMP`. -/
structure Stands (w : World K) (r m c : Id') : Prop where
  reg : r ∈ w.instances
  obj : ∃ o, w.objs[r]? = some o ∧ o.kind ≠ .coordinates ∧ o.name ≠ "TEMP" ∧ o.metric = m ∧ o.coords = c

omit [CommRing K] [DecidableEq K] in
theorem Stands.good (hw : Tidy w) {r m c : Id'} (h : Stands w r m c) :
    Good w r ∧ m ∈ w.instances ∧ c ∈ w.instances := by
  obtain ⟨o, h1, h2, -, h3, h4⟩ := h.obj
  exact ⟨hw.good h.reg fun o' ho' => by rw [h1] at ho'; cases ho'; exact h2,
    hw.closed r h.reg o h1 m (Or.inr ⟨h2, Or.inl h3⟩), hw.closed r h.reg o h1 c (Or.inr ⟨h2, Or.inr (Or.inl h4)⟩)⟩

omit [CommRing K] [DecidableEq K] in
theorem Stands.delete {r m c t : Id'} (h : Stands w r m c) (hne : r ≠ t) : Stands (deleteObj t w).2 r m c := by
  obtain ⟨o, h1, h2⟩ := h.obj
  unfold deleteObj
  split_ifs
  · exact h
  · exact ⟨(List.mem_erase_of_ne hne).2 h.reg, o, (modify_ne (Ne.symm hne) _).trans h1, h2⟩
  · exact ⟨h.reg, o, (modify_ne (Ne.symm hne) _).trans h1, h2⟩

omit [CommRing K] [DecidableEq K] in
theorem Stands.temps {r m c : Id'} (h : Stands w r m c) : Stands (deleteTemps w).2 r m c := by
  obtain ⟨o, h1, h2, h3, h4, h5⟩ := h.obj
  obtain ⟨o', e1, e2, e3⟩ := (Sp.deletePass (n := w.objs.length) (K := K) w le_rfl).1.2 r (lt_of_getElem? h1) o h1
  obtain ⟨k1, k2⟩ := e3 h3
  exact ⟨k2.2 h.reg, o', e1, by rw [show o'.kind = o.kind from congrArg (·.1) k1]; exact h2, by rw [e2]; exact h3,
    (show o'.metric = o.metric from congrArg (·.2.2.2.2.2.1) k1).trans h4,
    (show o'.coords = o.coords from congrArg (·.2.2.2.2.1) k1).trans h5⟩

/-- The end of the functions that compute tensors: the new one stays. -/
theorem Okd.finish (hw : Tidy w) {kind : Kind} (hk : kind ≠ .coordinates) {name : String} (hn : name ≠ "TEMP")
    (comps : Arg (Arr K)) {m c : Id'} (hm : m ∈ w.instances) (hc : InUse w c → c ∈ w.instances) (ix : IndicesArg)
    (symbol : Arg String) {t : Id'} (ht : t < w.objs.length) :
    Okd (do
      let r ← newTensor kind (.val name) comps m c ix symbol
      deleteTemps
      deleteObj t
      return r) w fun r w' => Stands w' r m c := by
  refine Ok.bindd (Ok.newTensor_obj hw kind hk (.val name) comps hm hc ix symbol) ?_
  rintro r w1 g1 hw1 ⟨h1, h2, h3, -, o, h4, h5, h6, h7, h8⟩
  have hs : Stands w1 r m c := ⟨h2, o, h4, by rw [h6]; exact hk, by rw [h5]; exact hn, h7, h8⟩
  have hd := Okd.deletePass (sel := hasName "TEMP") (fun hw t => Okd.delete hw t) hw1
  refine Okd.bind (P := fun _ w' => Stands w' r m c) ⟨hd.1, hd.2.1, fun _ _ => hs.temps⟩ fun _ w2 k2 hw2 hs2 => ?_
  have hd := Okd.delete hw2 t
  exact Okd.bind (P := fun _ w' => Stands w' r m c) ⟨hd.1, hd.2.1, fun _ _ => hs2.delete fun h => absurd ht (by rw [← h, h3]; exact lt_irrefl _)⟩
    fun _ w3 k3 hw3 hs3 => (Ok.pure hw3 hs3).okd

theorem ne_temp {s t : String} (h : 5 ≤ t.length) : s ++ t ≠ "TEMP" := by
  intro he
  have := congrArg String.length he
  rw [String.length_append] at this
  have h4 : "TEMP".length = 4 := by decide
  omega

variable [Algebra ℚ K]

theorem Okd.computeChristoffel (hw : Tidy w) {m : Id'} (hm : Good w m) :
    Okd (computeChristoffel E m) w fun t w' => Good w' t ∧ m ∈ w'.instances := by
  unfold PyOGRe.computeChristoffel
  have hmf := hm.fine hw
  refine Okd.obj hw fun om hom ham => Ok.bindd (Ok.copyAs hw hmf _) fun i w1 g1 hw1 hi => ?_
  refine Ok.bindd (Ok.changeDefaultIndices hw1 hi _) fun _ w2 g2 hw2 _ => ?_
  refine Ok.bindd (Ok.modify hw2 i fun _ => ⟨rfl, rfl, rfl, rfl, rfl, rfl⟩) fun _ w3 g3 hw3 _ => ?_
  refine Ok.bindd (Ok.calcInit hw3 (fun _ => g3.fine i (g2.fine i hi)) _) fun x w4 g4 hw4 hx => ?_
  refine Ok.bindd (Ok.calcMul hw4 hx.1 _ fun z hz => nomatch hz) fun x w5 g5 hw5 hx => ?_
  have gm := g5.good (g4.good (g3.good (g2.good (g1.good hm))))
  refine Ok.bindd (Ok.calcInitG hw5 (fun _ => gm) _) fun a w6 g6 hw6 ha => ?_
  refine Ok.bindd (Ok.matmulPartial hw6 _ (ha.fine hw6) _) fun a w7 g7 hw7 ha => ?_
  refine Ok.bindd (Ok.calcInitG hw7 (fun _ => g7.good (g6.good gm)) _) fun b w8 g8 hw8 hb => ?_
  refine Ok.bindd (Ok.matmulPartial hw8 _ (hb.fine hw8) _) fun b w9 g9 hw9 hb => ?_
  refine Ok.bindd (Ok.calcAddObj hw9 ((g9.goodC (g8.goodC ha)).fine hw9) (hb.fine hw9)) fun s w10 g10 hw10 hs => ?_
  refine Ok.bindd (Ok.calcInitG hw10 (fun _ => g10.good (g9.good (g8.good (g7.good (g6.good gm))))) _) fun c w11 g11 hw11 hc => ?_
  refine Ok.bindd (Ok.matmulPartial hw11 _ (hc.fine hw11) _) fun c w12 g12 hw12 hc => ?_
  refine Ok.bindd (Ok.calcSub hw12 (g12.goodC (g11.goodC hs)) _ fun z hz => by cases hz; exact hc.fine hw12)
    fun s w13 g13 hw13 hs => ?_
  have gx := g13.goodC (g12.goodC (g11.goodC (g10.goodC (g9.goodC (g8.goodC (g7.goodC (g6.goodC hx)))))))
  have gm' := g13.good (g12.good (g11.good (g10.good (g9.good (g8.good (g7.good (g6.good gm)))))))
  refine Ok.bindd (Ok.matmulTensors hw13 (gx.fine hw13) (hs.fine hw13)) fun y w14 g14 hw14 hy => ?_
  refine Okd.bind (Okd.calcResult hw14 (hy.fine hw14) _ _ _) fun t w15 g15 hw15 ht => ?_
  refine Ok.bindd (Ok.getOwn hw15 (ht.fine hw15) _) fun comps w16 g16 hw16 _ => ?_
  have gm'' := g16.good (g15.good m (g14.good gm'))
  refine Okd.obj hw16 fun om hom ham => ?_
  have hmr : m ∈ w16.instances := gm''.or.resolve_right fun h => h ⟨om, hom, ham⟩
  exact Okd.mono (Okd.finish hw16 (by decide) (ne_temp (by decide)) _ hmr (fun _ => (gm''.fine hw16).coords hom ham) _ _
    (g16.good ht).lt) fun r w' hw' h => let h' := h.good hw'; ⟨h'.1, h'.2.1⟩

/-- Named Christoffel symbols. -/
theorem Okd.calcChristoffel (hw : Tidy w) {m : Id'} (hm : Good w m) :
    Okd (calcChristoffel E m) w fun t w' => (t < w'.objs.length ∧ (Tensorial w' t → Good w' t)) ∧ m ∈ w'.instances := by
  unfold PyOGRe.calcChristoffel
  refine Ok.bindd (P := fun _ _ => True) ?_ fun _ w0 g0 hw0 _ => Okd.obj hw0 fun om hom ham => Okd.read hw0 rfl fun r hr => ?_
  · unfold requireMetric
    exact Ok.read hw rfl fun b _ => Ok.ite (Ok.raise hw) (Ok.pure hw trivial)
  cases r with
  | some t =>
    injection hr with hr
    have hf := List.mem_of_find?_eq_some hr
    exact (Ok.pure hw0 ⟨⟨sound_lt hw0.sound hf, fun ht => hw0.good hf ht⟩,
      (g0.good hm).or.resolve_right fun h => h ⟨om, hom, ham⟩⟩).okd
  | none =>
    have h := Okd.computeChristoffel (E := E) hw0 (g0.good hm)
    exact ⟨h.1, h.2.1, fun a ha => ⟨⟨(h.2.2 a ha).1.lt, fun _ => (h.2.2 a ha).1⟩, (h.2.2 a ha).2⟩⟩

theorem Ok.covariantTerms {c t : Id'} (ls : List (List Sym × List Sym)) : ∀ {w : World K} (_ : Tidy w)
    (_ : Tensorial w c → Good w c) (_ : Good w t) (_ : c < w.objs.length),
    Ok (covariantTerms E c t ls) w fun l w' => ∀ x ∈ l, GoodC w' x := by
  induction ls with
  | nil => exact fun hw _ _ _ => Ok.pure hw (by simp)
  | cons l ls ih =>
    intro w hw hc ht hl
    by_cases hk : Tensorial w c
    · unfold PyOGRe.covariantTerms covariantTerm
      refine Ok.bind (P := fun x w' => GoodC w' x) ?_ fun x w3 g3 hw3 hx => ?_
      · refine Ok.bind (Ok.calcInitG hw hc _) fun x w1 g1 hw1 hx => ?_
        refine Ok.bind (Ok.calcInitG hw1 (fun _ => g1.good ht) _) fun y w2 g2 hw2 hy => ?_
        exact Ok.matmulTensors hw2 ((g2.goodC hx).fine hw2) (hy.fine hw2)
      · refine Ok.bind (ih hw3 (fun _ => g3.good (hc hk)) (g3.good ht) (lt_of_lt_of_le hl g3.kinds.1))
          fun xs w4 g4 hw4 hxs => Ok.pure hw4 fun z hz => ?_
        rcases List.mem_cons.1 hz with rfl | hz
        · exact g4.goodC hx
        · exact hxs z hz
    · unfold PyOGRe.covariantTerms covariantTerm PyOGRe.calcInit
      rw [pyM_bind_assoc, pyM_bind_assoc]
      exact Ok.requireTensor hw fun h => absurd h hk

theorem Ok.sumCalc (hw : Tidy w) (l : List CalcObj) (hl : ∀ x ∈ l, GoodC w x) :
    Ok (sumCalc E l) w fun y w' => ∀ z, y = .obj z → GoodC w' z := by
  have h : ∀ (l : List CalcObj) {w : World K} (_ : Tidy w) x (_ : GoodC w x) (_ : ∀ x ∈ l, GoodC w x),
      Ok (addAll E x l) w fun z w' => GoodC w' z := by
    intro l
    induction l with
    | nil => exact fun hw x hx _ => Ok.pure hw hx
    | cons y l ih =>
      intro w hw x hx hl
      refine Ok.bind (Ok.calcAddObj hw (hx.fine hw) ((hl y (by simp)).fine hw)) fun z w1 g1 hw1 hz => ?_
      exact ih hw1 z hz fun u hu => g1.goodC (hl u (by simp [hu]))
  cases l with
  | nil => exact Ok.pure hw fun z hz => nomatch hz
  | cons x l =>
    refine Ok.bind (Ok.calcAdd hw (hl x (by simp)) _ fun z hz => nomatch hz) fun z w1 g1 hw1 hz => ?_
    refine Ok.bind (h l hw1 z hz fun u hu => g1.goodC (hl u (by simp [hu]))) fun u w2 g2 hw2 hu => ?_
    exact Ok.pure hw2 fun v hv => by cases hv; exact hu

theorem Okd.matmulCovariant (hw : Tidy w) (letters d : List Sym) {y : CalcObj} (hy : GoodC w y)
    (ps : List Sym → Py Sym) (l l' : List Sym) :
    Okd (matmulCovariant E letters d y ps l l') w fun z w' => GoodC w' z := by
  unfold PyOGRe.matmulCovariant
  refine Okd.tensorOf hw (hy.fine hw) fun ty oy _ hty hoy hay => ?_
  refine Okd.bind (Okd.calcChristoffel hw (hty.metric hw hoy hay)) fun c w1 k1 hw1 hc => ?_
  refine Okd.lifted hw1 fun dummy => Okd.lifted hw1 fun p => ?_
  have hy1 := k1.goodC hy
  refine Okd.tensorOf hw1 (hy1.fine hw1) fun ty oy hyt hty hoy hay => ?_
  have hgy := hy1 ty hyt
  have hcl := hc.1.1
  have hcg : ∀ {w' : World K}, Grows w1 w' → Tensorial w' c → Good w' c := fun g h =>
    g.good (hc.1.2 (g.kinds.tensor_back hcl h))
  refine Ok.bindd (Ok.matmulPartial hw1 _ (hy1.fine hw1) _) fun x w2 g2 hw2 hx => ?_
  refine Ok.bindd (Ok.covariantTerms _ hw2 (hcg g2) (g2.good hgy) (lt_of_lt_of_le hcl g2.kinds.1)) fun up w3 g3 hw3 hu => ?_
  refine Ok.bindd (Ok.sumCalc hw3 _ hu) fun up w4 g4 hw4 hu => ?_
  refine Ok.bindd (Ok.calcAdd hw4 (g4.goodC (g3.goodC hx)) _ fun z hz => (hu z hz).fine hw4) fun x w5 g5 hw5 hx => ?_
  have g25 := g2.trans (g3.trans (g4.trans g5))
  refine Ok.bindd (Ok.covariantTerms _ hw5 (hcg g25) (g25.good hgy) (lt_of_lt_of_le hcl g25.kinds.1))
    fun lo w6 g6 hw6 hlo => ?_
  refine Ok.bindd (Ok.sumCalc hw6 _ hlo) fun lo w7 g7 hw7 hlo => ?_
  refine Ok.bindd (Ok.calcSub hw7 (g7.goodC (g6.goodC hx)) _ fun z hz => (hlo z hz).fine hw7) fun x w8 g8 hw8 hx => ?_
  refine Okd.tensorOf hw8 (hx.fine hw8) fun tx ox htx' htx hox hax => ?_
  refine Ok.bindd (Ok.calcInitG hw8 (fun _ => hx tx htx') _) fun x w9 g9 hw9 hx => ?_
  refine Okd.bind (Okd.calcResult_new hw9 (hx.fine hw9) _ _ _) fun r w10 k10 hw10 hr => ?_
  refine Ok.bindd (Ok.getOwn hw10 (hr.1.fine hw10) _) fun a w11 g11 hw11 _ => ?_
  have hy11 := g11.goodC (k10.goodC ((g25.trans (g6.trans (g7.trans (g8.trans g9)))).goodC hy1))
  refine Okd.tensorOf hw11 (hy11.fine hw11) fun ty oy htyt hty hoy hay => ?_
  refine Okd.bind (P := fun _ w' => oy.metric ∈ w'.instances ∧ oy.coords ∈ w'.instances) ?_ fun _ w12 k12 hw12 h12 => ?_
  · have hreg : ty ∈ w11.instances := (hy11 ty htyt).or.resolve_right fun h => h ⟨oy, hoy, hay⟩
    have hne : ty ≠ r := by
      have h1 := (((g25.trans (g6.trans (g7.trans (g8.trans g9)))).goodC hy1) ty htyt).lt
      exact fun h => absurd h1 (not_lt.2 (h ▸ hr.2))
    obtain ⟨h1, h2, -⟩ := Okd.delete hw11 r
    refine ⟨h1, h2, fun _ h3 => ?_⟩
    have hkeep : ty ∈ (deleteObj r w11).2.instances ∧ (deleteObj r w11).2.objs[ty]? = some oy := by
      unfold deleteObj
      split_ifs
      · exact ⟨hreg, hoy⟩
      · exact ⟨(List.mem_erase_of_ne hne).2 hreg, by rw [modify_ne (Ne.symm hne)]; exact hoy⟩
      · exact ⟨hreg, (modify_ne (Ne.symm hne) _).trans hoy⟩
    have hf := (h2.good hkeep.1 (h1.kinds.tensor hty.lt hty.tensor)).fine h2
    exact ⟨hf.metricIn hkeep.2 hay, hf.coords hkeep.2 hay⟩
  · exact (Ok.tempInit hw12 _ h12.1 h12.2 _ _ _).okd

theorem Okd.calcMatmul (hw : Tidy w) (letters : List Sym) {x y : CalcObj} (hx : GoodC w x) (hy : GoodC w y) :
    Okd (calcMatmul E letters x y) w fun z w' => GoodC w' z := by
  unfold PyOGRe.calcMatmul
  rcases x with ⟨rx, tx, lx⟩
  rcases y with ⟨ry, ty, ly⟩
  cases rx <;> cases ry <;> first
    | exact (Ok.matmulTensors hw (hx.fine hw) (hy.fine hw)).okd
    | exact (Ok.matmulPartial hw _ (hx.fine hw) _).okd
    | exact (Ok.matmulPartial hw _ (hy.fine hw) _).okd
    | exact Okd.matmulCovariant hw _ _ hx _ _ _
    | exact Okd.matmulCovariant hw _ _ hy _ _ _
    | exact (Ok.raise hw).okd

/-- An object given by the user. -/
def Given (w : World K) (t : Id') : Prop := t < w.objs.length ∧ (Tensorial w t → Good w t)

omit [CommRing K] [DecidableEq K] [Algebra ℚ K] in
theorem Kept.given (h : Kept w w') {t : Id'} (ht : Given w t) : Given w' t :=
  ⟨lt_of_lt_of_le ht.1 h.kinds.1, fun hk => h.good t (ht.2 (h.kinds.tensor_back ht.1 hk))⟩

theorem Okd.eval (letters : List Sym) (e : Expr K) : ∀ {w : World K} (_ : Tidy w) (_ : ∀ t ∈ e.tensors, Given w t),
    Okd (e.eval E letters) w fun z w' => GoodC w' z := by
  induction e with
  | tensor t l => exact fun hw h => (Ok.calcInitG hw (h t (by simp [Expr.tensors])).2 _).okd
  | scale v e ih => exact fun hw h => Okd.bind (ih hw h) fun x w1 _ hw1 hx =>
      (Ok.calcMul hw1 (hx.fine hw1) _ fun z hz => by cases hz).okd
  | times e f ih ih' =>
    exact fun hw h => Okd.bind (ih hw fun t ht => h t (by simp [Expr.tensors, ht])) fun x w1 k1 hw1 hx =>
      Okd.bind (ih' hw1 fun t ht => k1.given (h t (by simp [Expr.tensors, ht]))) fun y w2 k2 hw2 hy =>
      (Ok.calcMul hw2 ((k2.goodC hx).fine hw2) _ fun z hz => by cases hz; exact hy.fine hw2).okd
  | neg e ih => exact fun hw h => Okd.bind (ih hw h) fun x w1 _ hw1 hx => (Ok.calcNeg hw1 (hx.fine hw1)).okd
  | add e f ih ih' =>
    exact fun hw h => Okd.bind (ih hw fun t ht => h t (by simp [Expr.tensors, ht])) fun x w1 k1 hw1 hx =>
      Okd.bind (ih' hw1 fun t ht => k1.given (h t (by simp [Expr.tensors, ht]))) fun y w2 k2 hw2 hy =>
      (Ok.calcAddObj hw2 ((k2.goodC hx).fine hw2) (hy.fine hw2)).okd
  | sub e f ih ih' =>
    exact fun hw h => Okd.bind (ih hw fun t ht => h t (by simp [Expr.tensors, ht])) fun x w1 k1 hw1 hx =>
      Okd.bind (ih' hw1 fun t ht => k1.given (h t (by simp [Expr.tensors, ht]))) fun y w2 k2 hw2 hy =>
      (Ok.calcSub hw2 (k2.goodC hx) _ fun z hz => by cases hz; exact hy.fine hw2).okd
  | mul e f ih ih' =>
    exact fun hw h => Okd.bind (ih hw fun t ht => h t (by simp [Expr.tensors, ht])) fun x w1 k1 hw1 hx =>
      Okd.bind (ih' hw1 fun t ht => k1.given (h t (by simp [Expr.tensors, ht]))) fun y w2 k2 hw2 hy =>
      Okd.calcMatmul hw2 letters (k2.goodC hx) hy
  | derivative r l =>
    intro w hw h
    refine ⟨Kept.refl w, hw, fun z hz => ?_⟩
    replace hz : derivative r l = .ok z := hz
    unfold derivative at hz
    split_ifs at hz
    cases hz
    exact fun t ht => nomatch ht

end

end PyOGRe
