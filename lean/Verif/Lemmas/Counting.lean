import Verif.Lemmas.Histories
import Verif.Lemmas.Formula

/-! Helper lemmas: how many temporary tensors a formula makes. -/

namespace PyOGRe
open Spec
variable {K : Type} {w w' : World K} {α β : Type}

/-- If `m` returns `a` then `d` objects were registered, with `R a d`. -/
def Adds (m : PyM K α) (R : α → Nat → Prop) : Prop :=
  ∀ w a w', m w = (.ok a, w') → ∃ d, w'.instances.length = w.instances.length + d ∧ R a d

theorem Adds.bind {m : PyM K α} {f : α → PyM K β} {R : α → Nat → Prop} {S : β → Nat → Prop} (hm : Adds m R)
    (hf : ∀ a d, R a d → Adds (f a) fun b d' => S b (d + d')) : Adds (m >>= f) S := by
  intro w b w' h
  obtain ⟨a, w1, h1, h2⟩ := bind_ok h
  obtain ⟨d, k1, k2⟩ := hm w a w1 h1
  obtain ⟨d', k3, k4⟩ := hf a d k2 w1 b w' h2
  exact ⟨d + d', by omega, k4⟩

theorem Adds.mono {m : PyM K α} {R S : α → Nat → Prop} (hm : Adds m R) (h : ∀ a d, R a d → S a d) : Adds m S :=
  fun w a w' hw => by
    obtain ⟨d, h1, h2⟩ := hm w a w' hw
    exact ⟨d, h1, h a d h2⟩

theorem Adds.steady {m : PyM K α} {f : α → PyM K β} {S : β → Nat → Prop} (hm : Steady m) (hf : ∀ a, Adds (f a) S) :
    Adds (m >>= f) S := by
  refine Adds.bind (R := fun _ d => d = 0) (fun w a w' h => ⟨0, ?_, rfl⟩) fun a d hd => ?_
  · have := hm w
    rw [h] at this
    rw [this.2]
    rfl
  · subst hd
    exact Adds.mono (hf a) fun b d h => by rwa [Nat.zero_add]

theorem Adds.pure {a : α} {R : α → Nat → Prop} (h : R a 0) : Adds (Pure.pure a : PyM K α) R := by
  intro w b w' hw
  cases hw
  exact ⟨0, rfl, h⟩

theorem Adds.raise {e : PyErr} {R : α → Nat → Prop} : Adds (PyM.raise e : PyM K α) R := by
  intro w b w' hw
  cases hw

theorem Adds.ite {b : Prop} [Decidable b] {m m' : PyM K α} {R : α → Nat → Prop} (h : Adds m R) (h' : Adds m' R) :
    Adds (if b then m else m') R := by split_ifs <;> assumption

theorem Adds.lift {x : Py α} {f : α → PyM K β} {S : β → Nat → Prop} (hf : ∀ a, x = .ok a → Adds (f a) S) :
    Adds (PyM.lift x >>= f) S := by
  cases x with
  | error e => intro w b w' h; obtain ⟨a, w1, h1, -⟩ := bind_ok h; cases h1
  | ok a =>
    intro w b w' h
    obtain ⟨a', w1, h1, h2⟩ := bind_ok h
    cases h1
    exact hf a rfl w b w' h2

theorem Steady.tensorOf (x : CalcObj) : Steady (K := K) (PyOGRe.tensorOf x) := by
  unfold PyOGRe.tensorOf
  cases x.tensor with
  | none => exact Steady.raise _
  | some t => exact Steady.bind (Steady.getObj _) fun _ => Steady.pure _

theorem Steady.metricAttr (x : CalcObj) : Steady (K := K) (PyOGRe.metricAttr x) := fun w => Frame.refl w

theorem Steady.defaultComps (t : Id') : Steady (K := K) (PyOGRe.defaultComps t) :=
  Steady.bind (Steady.getObj _) fun _ => Steady.readComps _ _ _

theorem Steady.requireTensor (t : Id') : Steady (K := K) (PyOGRe.requireTensor t) := by
  intro w
  unfold PyOGRe.requireTensor
  split_ifs <;> exact Frame.refl w

theorem Steady.requireArray (x : CalcObj) : Steady (K := K) (PyOGRe.requireArray x) := by
  intro w
  rw [requireArray_state]
  exact Frame.refl w

variable [CommRing K] {E : Engine K}

theorem Adds.newTemp (a : Arr K) (m c : Id') (ix : List Int) (s : String) :
    Adds (newTemp a m c ix s) fun _ d => d = 1 := by
  intro w t w' h
  rcases newTensor_cases .tensor (.val "TEMP") a m c (.tuple ix) (.val s) w with ⟨e, he⟩ | ⟨_, _, -, -, -, -, -, -, he⟩
  · rw [PyOGRe.newTemp, he] at h
    cases h
  · rw [PyOGRe.newTemp, he] at h
    cases h
    exact ⟨1, by simp, rfl⟩

theorem single_isNodup (labels : List Sym) : (single labels).Nodup := by
  rw [List.nodup_iff_count_le_one]
  intro s
  unfold single
  by_cases h : labels.count s = 1
  · exact (List.filter_sublist.count_le s).trans_eq h
  · rw [List.count_eq_zero.2 (by simp [h])]
    exact Nat.zero_le 1

theorem length_filter_ne {l : List Sym} {s : Sym} (h : l.count s = 2) :
    (l.filter fun y => y != s).length + 2 = l.length := by
  have h1 := List.length_eq_length_filter_add (l := l) (fun y => y == s)
  have h2 : (l.filter fun y => y == s).length = 2 := by
    rw [← List.countP_eq_length_filter]
    exact h
  have h3 : (l.filter fun y => !(y == s)) = l.filter fun y => y != s := rfl
  rw [h2, h3] at h1
  omega

theorem Adds.traceStep (s : Sym) (t : Id') (labels : List Sym) :
    Adds (traceStep E s t labels) fun r d => labels.count s ≤ 2 ∧ 2 * d + r.2.length = labels.length ∧
      r.2 = if labels.count s = 2 then labels.filter fun y => y != s else labels := by
  unfold PyOGRe.traceStep
  dsimp only
  by_cases h1 : labels.count s > 2
  · rw [if_pos h1]
    exact Adds.raise
  rw [if_neg h1]
  by_cases h2 : labels.count s = 2
  · rw [if_pos h2]
    simp only [if_pos h2]
    refine Adds.steady (Steady.getObj _) fun o => Adds.steady (Steady.lift _) fun _ => Adds.steady (Steady.lift _) fun _ =>
      Adds.steady (getComponents_steady _ _ _) fun _ => Adds.steady (getComponents_steady _ _ _) fun _ =>
      Adds.steady (Steady.lift _) fun _ => Adds.steady (Steady.getObj _) fun _ => Adds.bind (Adds.newTemp _ _ _ _ _) ?_
    rintro t' d rfl
    exact Adds.pure ⟨by omega, by have := length_filter_ne h2; dsimp only; omega, rfl⟩
  · rw [if_neg h2]
    simp only [if_neg h2]
    exact Adds.pure ⟨by omega, by simp, rfl⟩

theorem Adds.traceLoop (ls : List Sym) : ∀ (t : Id') (labels : List Sym),
    Adds (traceLoop E ls t labels) fun r d => (∀ s ∈ ls, labels.count s ≤ 2) ∧ 2 * d + r.2.length = labels.length ∧
      r.2 = labels.filter fun y => decide (¬ (y ∈ ls ∧ labels.count y = 2)) := by
  induction ls with
  | nil => exact fun t labels => Adds.pure ⟨by simp, by simp, by simp⟩
  | cons s ls ih =>
    intro t labels
    unfold PyOGRe.traceLoop
    refine Adds.bind (Adds.traceStep s t labels) ?_
    rintro ⟨t1, l1⟩ d ⟨h1, h2, h3⟩
    dsimp only at h2 h3 ⊢
    refine Adds.mono (ih t1 l1) ?_
    rintro ⟨t2, l2⟩ d' ⟨k1, k2, k3⟩
    dsimp only at k2 k3 ⊢
    refine ⟨fun x hx => ?_, by omega, ?_⟩
    · rcases List.mem_cons.1 hx with rfl | hx
      · exact h1
      · by_cases hxs : x = s
        · rw [hxs]; exact h1
        · have := k1 x hx
          rw [h3] at this
          split_ifs at this
          · rwa [count_filter_ne hxs] at this
          · exact this
    · rw [k3, h3]
      split_ifs with hc
      · rw [List.filter_filter]
        refine List.filter_congr fun y _ => ?_
        by_cases hys : y = s
        · subst hys
          simp [hc]
        · simp only [count_filter_ne hys]
          rw [Bool.eq_iff_iff]
          simp [hys]
      · refine List.filter_congr fun y _ => ?_
        by_cases hys : y = s
        · subst hys
          simp [hc]
        · rw [Bool.eq_iff_iff]
          simp [hys]

theorem Adds.calcInit (t : Id') (labels : List Sym) :
    Adds (calcInit E t labels) fun z d => z.role = .tensor ∧ z.labels = single labels ∧ z.labels.Nodup ∧
      2 * d + z.labels.length = labels.length := by
  unfold PyOGRe.calcInit
  refine Adds.steady (Steady.requireTensor _) fun _ => Adds.steady (Steady.getObj _) fun _ =>
    Adds.steady (getComponents_steady _ _ _) fun _ => Adds.steady (Steady.lift _) fun _ =>
    Adds.bind (Adds.traceLoop labels t labels) ?_
  rintro ⟨t', l⟩ d ⟨h1, h2, h3⟩
  have hl : l = single labels := by
    dsimp only at h3
    rw [h3]
    refine List.filter_congr fun y hy => ?_
    have := h1 y hy
    have hp : 0 < labels.count y := List.count_pos_iff.2 hy
    rw [Bool.eq_iff_iff]
    simp [hy]
    omega
  refine Adds.pure ⟨rfl, hl, ?_, h2⟩
  dsimp only
  rw [hl]
  exact single_isNodup labels

theorem Adds.calcInit_nodup (t : Id') {labels : List Sym} (hn : labels.Nodup) :
    Adds (PyOGRe.calcInit E t labels) fun z d => z.role = .tensor ∧ z.labels = labels ∧ d = 0 := by
  refine Adds.mono (Adds.calcInit t labels) ?_
  rintro z d ⟨h1, h2, -, h4⟩
  rw [single_nodup hn] at h2
  refine ⟨h1, h2, ?_⟩
  rw [h2] at h4
  omega

/-- The end of the operations: a temporary tensor with distinct labels. -/
theorem Adds.made (a : Arr K) (m c : Id') (ix : List Int) (s : String) {labels : List Sym} (hn : labels.Nodup) :
    Adds (do let t ← PyOGRe.newTemp a m c ix s; PyOGRe.calcInit E t labels) fun z d =>
      z.role = .tensor ∧ z.labels = labels ∧ d = 1 := by
  refine Adds.bind (Adds.newTemp _ _ _ _ _) ?_
  rintro t d rfl
  refine Adds.mono (Adds.calcInit_nodup t hn) ?_
  rintro z d ⟨h1, h2, rfl⟩
  exact ⟨h1, h2, rfl⟩

theorem Adds.calcNeg {x : CalcObj} (hx : x.labels.Nodup) : Adds (PyOGRe.calcNeg E x) fun z d =>
    z.role = .tensor ∧ z.labels = x.labels ∧ d = 1 := by
  unfold PyOGRe.calcNeg
  refine Adds.steady (Steady.requireArray x) fun _ => Adds.ite Adds.raise (Adds.steady (Steady.tensorOf _) fun r => ?_)
  exact Adds.steady (Steady.defaultComps _) fun _ => Adds.made _ _ _ _ _ hx

theorem Adds.scale {x : CalcObj} (hx : x.labels.Nodup) (v : K) : Adds (PyOGRe.calcMul E x (.num v)) fun z d =>
    z.role = .tensor ∧ z.labels = x.labels ∧ d = 1 := by
  unfold PyOGRe.calcMul
  refine Adds.ite Adds.raise (Adds.steady (Steady.tensorOf _) fun r => ?_)
  exact Adds.steady (Steady.defaultComps _) fun _ => Adds.made _ _ _ _ _ hx

theorem Adds.calcAddObj {x y : CalcObj} (hx : x.labels.Nodup) : Adds (PyOGRe.calcAddObj E x y) fun z d =>
    z.role = .tensor ∧ z.labels = x.labels ∧ d = 1 := by
  unfold PyOGRe.calcAddObj
  refine Adds.ite Adds.raise (Adds.steady (Steady.metricAttr _) fun _ => Adds.steady (Steady.metricAttr _) fun _ =>
    Adds.ite Adds.raise (Adds.steady (Steady.tensorOf _) fun _ => Adds.steady (Steady.tensorOf _) fun _ =>
    Adds.ite Adds.raise (Adds.ite Adds.raise ?_)))
  exact Adds.steady (getComponents_steady _ _ _) fun _ => Adds.steady (Steady.lift _) fun _ => Adds.steady (Steady.lift _) fun _ =>
    Adds.steady (Steady.lift _) fun _ => Adds.steady (getComponents_steady _ _ _) fun _ => Adds.steady (Steady.lift _) fun _ =>
    Adds.steady (Steady.lift _) fun _ => Adds.made _ _ _ _ _ hx

theorem Adds.calcSub [DecidableEq K] {x y : CalcObj} (hx : x.labels.Nodup) (hy : y.labels.Nodup) :
    Adds (PyOGRe.calcSub E x (.obj y)) fun z d => z.role = .tensor ∧ z.labels = x.labels ∧ d = 2 := by
  unfold PyOGRe.calcSub
  refine Adds.ite Adds.raise (Adds.steady (Steady.tensorOf _) fun _ => Adds.steady (Steady.tensorOf _) fun _ =>
    Adds.ite Adds.raise (Adds.ite Adds.raise (Adds.bind (Adds.calcNeg hy) ?_)))
  rintro z d ⟨-, -, rfl⟩
  refine Adds.mono (Adds.calcAddObj hx) ?_
  rintro z d ⟨h1, h2, rfl⟩
  exact ⟨h1, h2, rfl⟩

theorem Steady.scaleBy (s t : Id') (l : List Sym) : Steady (PyOGRe.scaleBy E s t l) := by
  unfold PyOGRe.scaleBy
  exact Steady.bind (Steady.getObj _) fun _ => Steady.bind (getComponents_steady _ _ _) fun _ =>
    Steady.bind (Steady.readComps _ _ _) fun _ => Steady.pure _

theorem freeLabels_nodup {x y : List Sym} (hx : x.Nodup) (hy : y.Nodup) : (freeLabels x y).Nodup := by
  unfold freeLabels
  rw [List.nodup_append]
  refine ⟨hx.filter _, hy.filter _, fun a ha b hb => ?_⟩
  rintro rfl
  rw [List.mem_filter] at ha hb
  have := ha.2
  simp only [Bool.not_eq_true', List.contains_eq_mem, decide_eq_false_iff_not] at this
  exact this hb.1

theorem Adds.times {x y : CalcObj} (hx : x.labels.Nodup) (hy : y.labels.Nodup) :
    Adds (PyOGRe.calcMul E x (.obj y)) fun z d => z.role = .tensor ∧ z.labels.Nodup ∧ d = 1 := by
  unfold PyOGRe.calcMul
  refine Adds.ite Adds.raise (Adds.steady (Steady.tensorOf _) fun _ => Adds.steady (Steady.tensorOf _) fun _ =>
    Adds.ite Adds.raise ?_)
  have hs : ∀ (s t : Id') (l : List Sym), l.Nodup → Adds (PyOGRe.scaleBy E s t l) fun r d => d = 0 ∧ r.2.2.2.2.Nodup := by
    intro s t l hl
    unfold PyOGRe.scaleBy
    exact Adds.steady (Steady.getObj _) fun _ => Adds.steady (getComponents_steady _ _ _) fun _ =>
      Adds.steady (Steady.readComps _ _ _) fun _ => Adds.pure ⟨rfl, hl⟩
  refine Adds.bind (R := fun r d => d = 0 ∧ r.2.2.2.2.Nodup) ?_ ?_
  · unfold mulParts
    refine Adds.ite (Adds.ite (Adds.steady (Steady.scaleBy _ _ _) fun _ => ?_) ?_) ?_
    · exact hs _ _ _ hx
    · exact hs _ _ _ hx
    · exact hs _ _ _ hy
  · rintro r d ⟨rfl, hn⟩
    refine Adds.mono (Adds.made _ _ _ _ _ hn) ?_
    rintro z d ⟨h1, h2, rfl⟩
    exact ⟨h1, h2 ▸ hn, rfl⟩

theorem Adds.matmulTensors {x y : CalcObj} (hx : x.labels.Nodup) (hy : y.labels.Nodup) :
    Adds (PyOGRe.matmulTensors E x y) fun z d => z.role = .tensor ∧ z.labels.Nodup ∧ d = 1 := by
  unfold PyOGRe.matmulTensors
  refine Adds.steady (Steady.metricAttr _) fun _ => Adds.steady (Steady.metricAttr _) fun _ =>
    Adds.ite Adds.raise (Adds.steady (Steady.tensorOf _) fun _ => Adds.steady (Steady.tensorOf _) fun _ =>
    Adds.ite (Adds.times hx hy) ?_)
  refine Adds.steady (getComponents_steady _ _ _) fun _ => Adds.steady (Steady.lift _) fun _ =>
    Adds.steady (getComponents_steady _ _ _) fun _ => Adds.steady (Steady.lift _) fun _ =>
    Adds.steady (Steady.lift _) fun _ => Adds.mono (Adds.made _ _ _ _ _ (freeLabels_nodup hx hy)) ?_
  rintro z d ⟨h1, h2, rfl⟩
  exact ⟨h1, h2 ▸ freeLabels_nodup hx hy, rfl⟩

theorem Adds.matmulPartial {d : List Sym} {y : CalcObj} {l : List Sym} (hl : l.Nodup) :
    Adds (PyOGRe.matmulPartial E d y l) fun z d => z.role = .tensor ∧ z.labels.Nodup ∧ d = 1 := by
  unfold PyOGRe.matmulPartial
  refine Adds.steady (Steady.tensorOf _) fun _ => Adds.steady (Steady.lift _) fun _ => Adds.steady (Steady.lift _) fun _ =>
    Adds.steady (getComponents_steady _ _ _) fun _ => Adds.steady (Steady.getObj _) fun _ =>
    Adds.steady (Steady.lift _) fun _ => Adds.mono (Adds.made _ _ _ _ _ hl) ?_
  rintro z d ⟨h1, h2, rfl⟩
  exact ⟨h1, h2 ▸ hl, rfl⟩

theorem Adds.formula [DecidableEq K] [Algebra ℚ K] (letters : List Sym) (f : Formula K) :
    Adds (f.eval E letters) fun z d => z.role = .tensor ∧ z.labels.Nodup ∧ d = f.temps := by
  unfold Formula.eval
  induction f with
  | tensor t l =>
    refine Adds.mono (Adds.calcInit t l) ?_
    rintro z d ⟨h1, h2, h3, h4⟩
    refine ⟨h1, h3, ?_⟩
    rw [h2] at h4
    unfold Formula.temps
    omega
  | scale v f ih =>
    refine Adds.bind ih ?_
    rintro x d ⟨h1, h2, rfl⟩
    refine Adds.mono (Adds.scale h2 v) ?_
    rintro z d ⟨k1, k2, rfl⟩
    exact ⟨k1, k2 ▸ h2, rfl⟩
  | neg f ih =>
    refine Adds.bind ih ?_
    rintro x d ⟨h1, h2, rfl⟩
    refine Adds.mono (Adds.calcNeg h2) ?_
    rintro z d ⟨k1, k2, rfl⟩
    exact ⟨k1, k2 ▸ h2, rfl⟩
  | add f g ih ih' =>
    refine Adds.bind ih ?_
    rintro x d ⟨h1, h2, rfl⟩
    refine Adds.bind ih' ?_
    rintro y d ⟨h3, h4, rfl⟩
    refine Adds.mono (Adds.calcAddObj h2) ?_
    rintro z d ⟨k1, k2, rfl⟩
    exact ⟨k1, k2 ▸ h2, by rw [Formula.temps]; omega⟩
  | sub f g ih ih' =>
    refine Adds.bind ih ?_
    rintro x d ⟨h1, h2, rfl⟩
    refine Adds.bind ih' ?_
    rintro y d ⟨h3, h4, rfl⟩
    refine Adds.mono (Adds.calcSub h2 h4) ?_
    rintro z d ⟨k1, k2, rfl⟩
    exact ⟨k1, k2 ▸ h2, by rw [Formula.temps]; omega⟩
  | mul f g ih ih' =>
    refine Adds.bind ih ?_
    rintro x d ⟨h1, h2, rfl⟩
    refine Adds.bind ih' ?_
    rintro y d ⟨h3, h4, rfl⟩
    unfold calcMatmul
    rw [h1, h3]
    refine Adds.mono (Adds.matmulTensors h2 h4) ?_
    rintro z d ⟨k1, k2, rfl⟩
    exact ⟨k1, k2, by rw [Formula.temps]; omega⟩
  | diff a f ih =>
    refine Adds.bind ih ?_
    rintro x d ⟨h1, h2, rfl⟩
    refine Adds.lift fun D hD => ?_
    have : D = ⟨.partialD, none, [a]⟩ := by
      unfold derivative at hD
      rw [if_pos (by simp)] at hD
      cases hD
      rfl
    subst this
    unfold calcMatmul
    rw [h1]
    refine Adds.mono (Adds.matmulPartial (freeLabels_nodup (by simp) h2)) ?_
    rintro z d ⟨k1, k2, rfl⟩
    exact ⟨k1, k2, rfl⟩

omit [CommRing K] in
theorem has_of_mem {β : Type} {d : Dict Id' β} {t : Id'} {r : β} (h : (t, r) ∈ d) : d.has t = true := by
  unfold Dict.has
  rw [List.any_eq_true]
  exact ⟨_, h, by simp⟩

omit [CommRing K] in
theorem refers_uses (o : Obj K) (t : Id') (h : Refers o t) : o.uses t = true := by
  unfold Obj.uses
  rcases h with ⟨h1, r, h2⟩ | ⟨h1, h2⟩
  · rw [if_pos h1]
    exact has_of_mem h2
  · rw [if_neg h1]
    rcases h2 with h2 | h2 | ⟨d, h2⟩
    · simp [h2]
    · simp [h2]
    · simp [has_of_mem h2]

omit [CommRing K] in
/-- In an orderly registry no object refers to a temporary tensor. -/
theorem loose_temps (hR : RegistryOK w) : Loose (hasName "TEMP") (selected (hasName "TEMP") w) w := by
  refine ⟨⟨hR.nodup, fun i hi => hR.inUse i hi⟩, fun i hi => rfl, fun i hi hp => ?_⟩
  rintro ⟨j, hj, -, o, ho, hr⟩
  obtain ⟨o', h1, h2⟩ := hR.refs j hj o ho i (refers_uses o i hr)
  unfold selected at hp
  rw [h1] at hp
  have hn : o'.name = "TEMP" := by simpa [hasName] using hp
  obtain ⟨h3, h4⟩ := hR.temp i hi o' h1 hn
  rcases h2 with h2 | h2
  · exact h3 h2
  · exact h4 h2

variable {G : Ground K} {V : View K}

/-- What the two loops at the end of `Calc` leave. -/
theorem two_passes (hR : RegistryOK w) {pre l : List Id'} {r : Id'} (hi : w.instances = pre ++ l ++ [r])
    (hpre : ∀ i ∈ pre, ¬ Named w "TEMP" i) (hl : ∀ i ∈ l, Named w "TEMP" i) (hr : ¬ Named w "TEMP" r) :
    Does (timesDo (deletePass (hasName "TEMP") deleteObj) 2) w fun _ w' => ∃ l', w'.instances = pre ++ l' ++ [r] ∧
      l'.Sublist l ∧ l'.length = l.length / 4 ∧ ∀ i ∈ w'.instances, w'.objs[i]? = w.objs[i]? := by
  have hp : ∀ i, selected (hasName "TEMP") w i = true ↔ Named w "TEMP" i := by
    intro i
    unfold selected Named
    cases h : w.objs[i]? with
    | none => simp
    | some o => simp [hasName]
  have hp' : ∀ i, ¬ Named w "TEMP" i → selected (hasName "TEMP") w i = false := fun i h => by
    rw [← Bool.not_eq_true, hp]
    exact h
  obtain ⟨w1, h1, hI1, hs1⟩ := sweep (deletes_delete (p := selected (hasName "TEMP") w)) (loose_temps hR)
  obtain ⟨w2, h2, -, hs2⟩ := sweep (deletes_delete (p := selected (hasName "TEMP") w)) hI1
  obtain ⟨l1, e1, e2, e3⟩ := skipping_count (p := selected (hasName "TEMP") w) pre l r (fun i h => hp' i (hpre i h))
    (fun i h => (hp i).2 (hl i h)) (hp' r hr)
  obtain ⟨l2, f1, f2, f3⟩ := skipping_count (p := selected (hasName "TEMP") w) pre l1 r (fun i h => hp' i (hpre i h))
    (fun i h => (hp i).2 (hl i (e2.subset h))) (hp' r hr)
  have hw1 : w1.instances = pre ++ l1 ++ [r] := by rw [hs1.instances, hi, e1]
  have hw2 : w2.instances = pre ++ l2 ++ [r] := by rw [hs2.instances, hw1, f1]
  refine ⟨(), w2, ?_, l2, hw2, f2.trans e2, by omega, fun i hi' => ?_⟩
  · unfold timesDo
    rw [PyM.bind_apply, h1]
    unfold timesDo
    dsimp only
    rw [PyM.bind_apply, h2]
    rfl
  · rw [hs2.kept i (Or.inl hi'), hs1.kept i (Or.inl ?_)]
    rw [hs2.instances] at hi'
    exact (skipping_sublist _).subset hi'

/-- The registry after `Calc`. -/
theorem count_calc (hE : ∀ x, E.simp x = x) (hS : Scene G V w) {x : CalcObj} {t : Id'} {D : TField K}
    (hx : Denotes G V x t D) {name symbol : String} (hname : name ≠ "TEMP") {indices : List Sym}
    (hi : indices = [] ∨ indices.Perm x.labels) {pre l : List Id'} (hinst : w.instances = pre ++ l)
    (hpre : ∀ i ∈ pre, ¬ Named w "TEMP" i) (hl : ∀ i ∈ l, Named w "TEMP" i) :
    Does (calcResult E x name symbol indices) w fun r w' => ∃ l', w'.instances = pre ++ l' ++ [r] ∧
      l'.Sublist l ∧ l'.length = l.length / 4 ∧ (∀ i ∈ pre, ¬ Named w' "TEMP" i) ∧ (∀ i ∈ l', Named w' "TEMP" i) ∧
      ¬ Named w' "TEMP" r ∧ l.Nodup := by
  obtain ⟨requested, hreq⟩ : ∃ requested, requested = if indices = [] then x.labels else indices := ⟨_, rfl⟩
  have hperm : requested.Perm x.labels := by
    rw [hreq]
    split_ifs with h
    · exact List.Perm.refl _
    · exact hi.resolve_left h
  have hnd : requested.Nodup := hperm.nodup_iff.2 hx.nodup
  unfold calcResult
  rw [if_neg (by
    rintro ⟨h1, h2⟩
    rw [← Bool.not_eq_true, List.isPerm_iff] at h2
    exact h2 (hi.resolve_left h1))]
  rw [← hreq]
  refine Does.lift (mapM_ok _ (x.labels.idxOf) _ fun s hs => labelPos_ok (hperm.mem_iff.1 hs)) ?_
  obtain ⟨o, ht, ho, hsh⟩ := tensorOf_ok hS hx.toNames
  refine Does.step ht ?_
  dsimp only
  rw [hsh.indices, hsh.coords, hsh.metric, hx.coords]
  have hcfg := hsh.config
  refine Does.lift (mapM_ok _ (fun i => D.ix.getD i 1) _ fun i hi => ?_) ?_
  · obtain ⟨s, hs, rfl⟩ := List.mem_map.1 hi
    exact tupleGet_ok (by rw [← hx.length]; exact List.idxOf_lt_length_iff.2 (hperm.mem_iff.1 hs)) 1
  refine Does.bind (scene_getComponents hE hS hx.field hcfg) ?_
  rintro a w1 ⟨hS1, hF1, ha⟩
  obtain ⟨b, hb1, hb2, hb3, hb4⟩ := permutedims_labels hS.pos hnd hperm (a := a)
    (by rw [ha.2.1, hx.length])
  refine Does.lift hb1 ?_
  have hsimp : (if b.rank > 0 then b.map E.simp else b) = b := by
    split_ifs
    · exact simp_map hb2 hE
    · rfl
  rw [hsimp]
  have hixm : List.map (fun i => D.ix.getD i 1) (List.map x.labels.idxOf requested) =
      requested.map (posOf x.labels D.ix) := by rw [List.map_map]; rfl
  rw [hixm]
  have hlen : (requested.map (posOf x.labels D.ix)).length = requested.length := by simp
  have hcfg' : Config (requested.map (posOf x.labels D.ix)).length (requested.map (posOf x.labels D.ix)) := by
    refine ⟨rfl, fun i hi => ?_⟩
    obtain ⟨s, -, rfl⟩ := List.mem_map.1 hi
    exact positions_posOf _ hcfg s
  obtain ⟨on, w2, e1, e2, e3, e4, e5, e6, e7, e8⟩ := scene_new hS1 (kind := .tensor) (Or.inl rfl) name symbol
    (a := b) (f := b.get) (ix := requested.map (posOf x.labels D.ix))
    ⟨hb2, by rw [hb3, hlen], fun _ _ _ => rfl⟩ hcfg'
  refine Does.bind (Q := fun t w' => t = w1.objs.length ∧ w' = w2) ⟨_, _, e1, rfl, rfl⟩ ?_
  rintro t' w2' ⟨rfl, rfl⟩
  have hold : ∀ i ∈ w.instances, Named w2' "TEMP" i ↔ Named w "TEMP" i := by
    intro i hi
    obtain ⟨oi, k1, -⟩ := hS.registry.inUse i hi
    obtain ⟨oi', k2, k3⟩ := hF1.get k1
    have k4 : w2'.objs[i]? = some oi' := by rw [e4]; exact getElem?_append_old k2
    unfold Named
    rw [k1, k4]
    simp [show oi'.name = oi.name from congrArg (·.2.1) k3]
  have hinst2 : w2'.instances = pre ++ l ++ [w1.objs.length] := by rw [e3, hF1.2, hinst]
  have hnew : ¬ Named w2' "TEMP" w1.objs.length := by
    rintro ⟨o', k1, k2⟩
    rw [e4, getElem?_append_length] at k1
    cases k1
    exact hname (e5.symm.trans k2)
  have hp2 : ∀ i ∈ pre, ¬ Named w2' "TEMP" i := fun i h hn => hpre i h ((hold i (by rw [hinst]; simp [h])).1 hn)
  have hl2 : ∀ i ∈ l, Named w2' "TEMP" i := fun i h => (hold i (by rw [hinst]; simp [h])).2 (hl i h)
  refine Does.bind (two_passes e2.registry hinst2 hp2 hl2 hnew) ?_
  rintro _ w3 ⟨l', k1, k2, k3, k4⟩
  have hsame : ∀ i ∈ w3.instances, Named w3 "TEMP" i ↔ Named w2' "TEMP" i := fun i h => by
    unfold Named
    rw [k4 i h]
  refine Does.pure ⟨l', k1, k2, k3, fun i h hn => hp2 i h ((hsame i ?_).1 hn), fun i h => (hsame i ?_).2 (hl2 i (k2.subset h)),
    fun hn => hnew ((hsame _ ?_).1 hn), ?_⟩
  · rw [k1]; simp [h]
  · rw [k1]; simp [h]
  · rw [k1]; simp
  · have := hS.registry.nodup
    rw [hinst] at this
    exact (List.nodup_append.1 this).2.1

/-- The registry after `Calc` of a formula. -/
theorem count_formula [DecidableEq K] [Algebra ℚ K] {F : Id' → TField K} (hE : ∀ x, E.simp x = x) (hS : Scene G V w)
    (letters : List Sym) {f : Formula K} (hf : f.OK G V F) {name symbol : String} (hname : name ≠ "TEMP")
    {order : List Sym} (hi : order = [] ∨ order.Perm f.labels) (hno : ∀ i ∈ w.instances, ¬ Named w "TEMP" i) :
    Does (do let x ← f.eval E letters; calcResult E x name symbol order) w fun r w' => ∃ l,
      w'.instances = w.instances ++ l ++ [r] ∧ l.length = f.temps / 4 ∧
      (∀ i ∈ w.instances, ¬ Named w' "TEMP" i) ∧ (∀ i ∈ l, Named w' "TEMP" i) ∧ ¬ Named w' "TEMP" r ∧ l.Nodup := by
  obtain ⟨z, w1, h1, V', t, D, hS', hV, hT, hz, h2, -⟩ := formula_eval hE letters hS hf
  obtain ⟨d, k1, -, -, rfl⟩ := Adds.formula (E := E) letters f w z w1 h1
  obtain ⟨l, k2, k3⟩ := hT.2
  have hlen : l.length = f.temps := by
    rw [k2, List.length_append] at k1
    omega
  have hpre : ∀ i ∈ w.instances, ¬ Named w1 "TEMP" i := by
    rintro i h ⟨o', e1, e2⟩
    obtain ⟨o, e3, -⟩ := hS.registry.inUse i h
    obtain ⟨o'', e4, -, e5, -⟩ := hT.1 i o e3
    rw [e1] at e4
    cases e4
    exact hno i h ⟨o, e3, e5.symm.trans e2⟩
  obtain ⟨r, w2, j1, l', j2, j3, j4, j5, j6, j7, j8⟩ := count_calc hE hS' hz hname (symbol := symbol) (indices := order)
    (by rw [h2]; exact hi) k2 hpre (fun i h => (k3 i h).2)
  refine ⟨r, w2, ?_, l', j2, by rw [j4, hlen], j5, j6, j7, j3.nodup j8⟩
  rw [PyM.bind_apply, h1]
  exact j1

end PyOGRe
