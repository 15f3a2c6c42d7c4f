import Verif.Lemmas.Shapes
import Verif.Lemmas.Attributes

/-! Helper lemmas: no call stores an array of a wrong shape. -/

namespace PyOGRe
open Spec
variable {K : Type} {n : Nat}

/-- If all coordinate systems have `n` coordinates afterwards, then they did before. -/
def Bk (n : Nat) {α : Type} (m : PyM K α) : Prop := ∀ w, AllDim n (m w).2 → AllDim n w

/-- If all coordinate systems have `n` coordinates, then no wrong shape is stored. -/
def Sh (n : Nat) {α : Type} (m : PyM K α) : Prop := Bk n m ∧ ∀ w, AllDim n (m w).2 → Fits n w → Fits n (m w).2

/-- The same for one state, up to caches. -/
def SM (n : Nat) (w0 : World K) {α : Type} (m : PyM K α) : Prop :=
  ∀ w, Frame w0 w → AllDim n w → Fits n w → Fits n (m w).2

theorem AllDim.frame {w w' : World K} (h : AllDim n w) (hf : Frame w' w) : AllDim n w' := by
  intro i o ho hk
  obtain ⟨o', h1, h2⟩ := hf.get ho
  rw [← core_syms h2]
  exact h i o' h1 ((core_kind h2).trans hk)

theorem AllDim.lasts {T : Bool} {w w' : World K} (h : AllDim n w') (hl : Lasts T w.objs.length w w') : AllDim n w := by
  intro i o ho hk
  obtain ⟨o', h1, h2⟩ := hl.2 i (lt_of_getElem? ho) o ho
  rw [← h2.syms]
  exact h i o' h1 (h2.kind.trans hk)

section
variable {α β : Type} {w0 : World K}

theorem Bk.bind {m : PyM K α} {f : α → PyM K β} (hm : Bk n m) (hf : ∀ a, Bk n (f a)) : Bk n (m >>= f) := by
  intro w h
  rw [PyM.bind_apply] at h
  have h1 := hm w
  rcases e : m w with ⟨r, w'⟩
  rw [e] at h h1
  cases r with
  | ok a => exact h1 (hf a w' h)
  | error e => exact h1 h

theorem Bk.steady {m : PyM K α} (h : Steady m) : Bk n m := fun w hw => hw.frame (h w)
theorem Bk.kept {m : PyM K α} (h : Kp m) : Bk n m := fun w hw => hw.frame (h w).1
theorem Bk.at {T : Bool} {m : PyM K α} {Q : α → Prop} (h : ∀ k, At T k m Q) : Bk n m :=
  fun w hw => hw.lasts (h w.objs.length w (le_refl _)).1
theorem Bk.ite {b : Prop} [Decidable b] {m m' : PyM K α} (h : Bk n m) (h' : Bk n m') :
    Bk n (if b then m else m') := by split_ifs <;> assumption
theorem Bk.modify {i : Id'} {u : Obj K → Obj K} (h : ∀ o, (u o).kind = o.kind ∧ (u o).syms = o.syms) :
    Bk n (modifyObj i u) := by
  intro w hw j o ho hk
  by_cases hij : i = j
  · subst hij
    have := hw i (u o) (modify_same ho u) ((h o).1.trans hk)
    rwa [(h o).2] at this
  · exact hw j o (by show (w.objs.modify i u)[j]? = _; rw [modify_ne hij, ho]) hk

theorem SM.sd {m : PyM K α} {P : α → Prop} (h : Sd n w0 m P) : SM n w0 m :=
  fun w hw hd hs => (h (hd.frame hw) w hw hs).2.1

theorem SM.bind {m : PyM K α} {f : α → PyM K β} {P : α → Prop} (hm : Sd n w0 m P)
    (hf : ∀ a, P a → SM n w0 (f a)) : SM n w0 (m >>= f) := by
  intro w hw hd hs
  obtain ⟨h1, h2, h3⟩ := hm (hd.frame hw) w hw hs
  rw [PyM.bind_apply]
  rcases h : m w with ⟨r, w'⟩
  rw [h] at h1 h2 h3
  cases r with
  | ok a => exact hf a (h3 a rfl) w' h1 ((hd.frame hw).frame h1.symm) h2
  | error e => exact h2

theorem SM.ite {b : Prop} [Decidable b] {m m' : PyM K α} (h : b → SM n w0 m) (h' : ¬ b → SM n w0 m') :
    SM n w0 (if b then m else m') := by
  split_ifs with hb
  · exact h hb
  · exact h' hb

theorem Fits.modify {w : World K} {i : Id'} {u : Obj K → Obj K} (hs : Fits n w) (hk : ∀ o, (u o).kind = o.kind)
    (h : ∀ o, w.objs[i]? = some o → Shapely n (u o) ∧ (o.kind ≠ .coordinates → Sys w (u o).coords)) :
    Fits n (modifyObj i u w).2 := by
  have hsys : ∀ c, Sys w c → Sys (modifyObj i u w).2 c := by
    rintro c ⟨oc, h1, h2⟩
    by_cases hic : i = c
    · subst hic
      exact ⟨u oc, modify_same h1 u, (hk oc).trans h2⟩
    · exact ⟨oc, by show (w.objs.modify i u)[c]? = _; rw [modify_ne hic, h1], h2⟩
  intro j o ho
  have ho' : (w.objs.modify i u)[j]? = some o := ho
  by_cases hij : i = j
  · subst hij
    cases h1 : w.objs[i]? with
    | none => rw [List.getElem?_modify, h1] at ho'; simp at ho'
    | some o1 =>
      rw [modify_same h1] at ho'
      cases ho'
      obtain ⟨h2, h3⟩ := h o1 h1
      exact ⟨h2, fun hk' => hsys _ (h3 (by rwa [← hk o1]))⟩
  · rw [modify_ne hij] at ho'
    exact ⟨(hs j o ho').1, fun hk' => hsys _ ((hs j o ho').2 hk')⟩

theorem SM.modify {i : Id'} {u : Obj K → Obj K} (hk : ∀ o, (u o).kind = o.kind)
    (h : ∀ o, Got n w0 i o → Shapely n (u o) ∧ (o.kind ≠ .coordinates → Sys w0 (u o).coords)) : SM n w0 (modifyObj i u) := by
  intro w hw _ hs
  refine hs.modify hk fun o ho => ?_
  obtain ⟨h1, h2⟩ := h o (hs.got hw ho)
  exact ⟨h1, fun hk => (h2 hk).frame hw⟩

theorem Sh.of {m : PyM K α} (hb : Bk n m) (h : ∀ w, SM n w m) : Sh n m :=
  ⟨hb, fun w hd hs => h w w (Frame.refl w) (hb w hd) hs⟩

theorem Sh.sd {m : PyM K α} {P : World K → α → Prop} (hf : Steady m) (h : ∀ w, Sd n w m (P w)) : Sh n m :=
  Sh.of (Bk.steady hf) fun w => SM.sd (h w)

theorem Kp.steady {m : PyM K α} (h : Kp m) : Steady m := fun w => (h w).1

theorem Sh.bind {m : PyM K α} {f : α → PyM K β} (hm : Sh n m) (hf : ∀ a, True → Sh n (f a)) : Sh n (m >>= f) := by
  refine ⟨Bk.bind hm.1 fun a => (hf a trivial).1, fun w hd hs => ?_⟩
  rw [PyM.bind_apply] at hd ⊢
  have h1 := hm.2 w
  rcases e : m w with ⟨r, w'⟩
  rw [e] at hd h1
  cases r with
  | ok a => exact (hf a trivial).2 w' hd (h1 ((hf a trivial).1 w' hd) hs)
  | error e => exact h1 hd hs

theorem Sh.any {m : PyM K α} (h : Sh n m) : Sh n m := h
theorem Sh.reads {m : PyM K α} (h : ∀ w, (m w).2 = w) : Sh n m :=
  ⟨fun w hw => by rwa [h w] at hw, fun w _ hs => by rwa [h w]⟩
theorem Sh.done (a : α) : Sh n (Pure.pure a : PyM K α) := Sh.reads fun _ => rfl
theorem Sh.raise {e : PyErr} : Sh n (PyM.raise e : PyM K α) := Sh.reads fun _ => rfl
theorem Sh.lift (x : Py α) : Sh n (PyM.lift x : PyM K α) := Sh.reads fun _ => rfl
theorem Sh.ite {b : Prop} [Decidable b] {m m' : PyM K α} (h : Sh n m) (h' : Sh n m') :
    Sh n (if b then m else m') := by split_ifs <;> assumption
theorem Sh.onlyIf {b : Bool} {m : PyM K Unit} (h : Sh n m) : Sh n (PyM.onlyIf b m) := Sh.ite h (Sh.done ())
theorem Sh.getObj (i : Id') : Sh n (K := K) (PyOGRe.getObj i) := Sh.reads (getObj_state i)
theorem Sh.world : Sh n (K := K) PyM.world := Sh.reads fun _ => rfl
theorem Sh.readComps (t c : Id') (ix : List Int) : Sh n (K := K) (PyOGRe.readComps t c ix) :=
  Sh.sd (Steady.readComps _ _ _) fun _ => Sd.readComps _ _ _
theorem Sh.isCoordinates (c : Id') : Sh n (K := K) (PyOGRe.isCoordinates c) := Sh.reads fun _ => rfl
theorem Sh.isMetric (c : Id') : Sh n (K := K) (PyOGRe.isMetric c) := Sh.reads fun _ => rfl

/-- A change that has nothing to do with shapes. -/
theorem Sh.change {i : Id'} {u : Obj K → Obj K} (h : ∀ o, (u o).kind = o.kind ∧ (u o).indices = o.indices ∧
    (u o).coords = o.coords ∧ (u o).comps = o.comps ∧ (u o).syms = o.syms ∧ (u o).jac = o.jac) : Sh n (modifyObj i u) := by
  refine ⟨Bk.modify fun o => ⟨(h o).1, (h o).2.2.2.2.1⟩, fun w _ hs => hs.modify (fun o => (h o).1) fun o ho => ?_⟩
  obtain ⟨k1, k2, k3, k4, k5, k6⟩ := h o
  obtain ⟨h1, h2⟩ := hs i o ho
  have hst : ∀ c ix, stored (u o) c ix = stored o c ix := fun c ix => by unfold stored; rw [k4]
  refine ⟨⟨fun c ix a ha => ?_, fun hk c ix => ?_, fun hk => ?_, fun hk => ?_, by rw [k2]; exact h1.signs, fun hk c j hj => ?_⟩, fun hk => by rw [k3]; exact h2 hk⟩
  · rw [hst] at ha; rw [k2]; exact h1.keys c ix a ha
  · rw [hst]; exact h1.plain (k1.symm.trans hk) c ix
  · rw [k2]; exact h1.two (k1.symm.trans hk)
  · rw [k5]; exact h1.bare (by rwa [← k1])
  · rw [k6] at hj; exact h1.jacs (k1.symm.trans hk) c j hj

/-- Adding an object. -/
theorem Fits.append {w : World K} {o : Obj K} {l : List Id'} (hs : Fits n w) (h : Shapely n o)
    (h' : o.kind ≠ .coordinates → Sys w o.coords) : Fits n ⟨w.objs ++ [o], l⟩ := by
  have hsys : ∀ c, Sys w c → Sys (K := K) ⟨w.objs ++ [o], l⟩ c := by
    rintro c ⟨oc, h1, h2⟩
    exact ⟨oc, getElem?_append_old h1, h2⟩
  intro j x hx
  have hx' : (w.objs ++ [o])[j]? = some x := hx
  rw [List.getElem?_append] at hx'
  split_ifs at hx' with hj
  · exact ⟨(hs j x hx').1, fun hk => hsys _ ((hs j x hx').2 hk)⟩
  · obtain rfl : o = x := by
      rw [List.getElem?_singleton] at hx'
      split_ifs at hx'
      exact Option.some.inj hx'
    exact ⟨h, fun hk => hsys _ (h' hk)⟩

theorem AllDim.append {w : World K} {o : Obj K} {l : List Id'} (h : AllDim n (K := K) ⟨w.objs ++ [o], l⟩) : AllDim n w :=
  fun i x hx hk => h i x (getElem?_append_old hx) hk

/-- What a new tensor looks like. -/
theorem newBase_forms (kind : Kind) (name : Arg String) (comps : Arg (Arr K)) (m : Option Id') (c : Id')
    (ix : IndicesArg) (symbol : Arg String) (w : World K) :
    (∃ e, newBaseTensor kind name comps m c ix symbol w = (.error e, w)) ∨
    ∃ (oc : Obj K) (a : Arr K) (ix' : List Int) (o : Obj K), w.objs[c]? = some oc ∧ oc.kind = .coordinates ∧
      comps = .val a ∧ Signs ix' ∧ ix'.length = a.shape.length ∧ (∀ l, ix = .tuple l → ix' = l) ∧ (∀ d ∈ a.shape, d = oc.syms.length) ∧
      o.kind = kind ∧ o.indices = ix' ∧ o.coords = c ∧ o.comps = [(c, [(ix', a)])] ∧ o.syms = [] ∧ o.jac = [] ∧
      newBaseTensor kind name comps m c ix symbol w = (.ok w.objs.length, ⟨w.objs ++ [o], w.instances ++ [w.objs.length]⟩) := by
  unfold newBaseTensor
  rw [PyM.bind_apply, show isCoordinates (K := K) c w = (.ok ((w.objs[c]?).any fun o => o.kind == .coordinates), w) from rfl]
  dsimp only
  cases hb : (w.objs[c]?).any fun o => o.kind == .coordinates with
  | false => exact Or.inl ⟨_, rfl⟩
  | true =>
    cases hc : w.objs[c]? with
    | none => rw [hc] at hb; cases hb
    | some oc =>
      rw [hc, Option.any_some] at hb
      have hk : oc.kind = .coordinates := by simpa using hb
      rw [if_neg (by simp), PyM.bind_apply]
      rcases getObj_cases c w with ⟨o, h1, h2, h3⟩ | h3
      · rw [hc] at h1
        cases h1
        rw [h3]
        dsimp only
        rw [PyM.bind_apply, PyM.lift_apply]
        cases hv : validateBaseTensor name (argShape comps) oc.syms.length ix symbol with
        | error e => exact Or.inl ⟨_, rfl⟩
        | ok u =>
          right
          cases comps with
          | other =>
            exfalso
            unfold validateBaseTensor argShape at hv
            obtain ⟨_, _, h⟩ := except_bind_ok hv
            cases h
          | val a =>
            unfold validateBaseTensor argShape at hv
            obtain ⟨u', hv1, hv2⟩ := except_bind_ok hv
            dsimp only at hv2
            split_ifs at hv2 with hd
            have hdims : ∀ d ∈ a.shape, d = oc.syms.length := by
              intro d hd'
              by_contra hne
              exact hd (List.any_eq_true.2 ⟨d, hd', by simpa using hne⟩)
            have hix : Signs (ix.getD a.rank) ∧ (ix.getD a.rank).length = a.shape.length := by
              cases ix with
              | tuple l =>
                unfold validateOGReObject at hv1
                cases name with
                | other => cases hv1
                | val s =>
                  cases symbol with
                  | other => cases hv1
                  | val s' =>
                    dsimp only at hv1
                    split_ifs at hv1 with h5
                    unfold validateIndicesRank at hv1
                    dsimp only at hv1
                    split_ifs at hv1 with h6 h7
                    refine ⟨fun x hx => ?_, (not_not.1 h7).symm⟩
                    by_contra hcx
                    exact h6 (List.any_eq_true.2 ⟨x, hx, by simpa using hcx⟩)
              | none =>
                refine ⟨fun x hx => Or.inr (List.eq_of_mem_replicate hx), ?_⟩
                show (List.replicate a.rank (-1 : Int)).length = _
                rw [List.length_replicate]
                rfl
              | other =>
                refine ⟨fun x hx => Or.inr (List.eq_of_mem_replicate hx), ?_⟩
                show (List.replicate a.rank (-1 : Int)).length = _
                rw [List.length_replicate]
                rfl
            exact ⟨oc, a, ix.getD a.rank, _, rfl, hk, rfl, hix.1, hix.2, fun l hl => by rw [hl]; rfl, hdims, rfl, rfl, rfl, rfl, rfl, rfl, rfl⟩
      · rw [h3]
        exact Or.inl ⟨_, rfl⟩

theorem Sh.newBaseTensor {kind : Kind} (hk : kind ≠ .coordinates) {comps : Arg (Arr K)}
    (h2 : kind = .metric → ∀ a, comps = .val a → a.shape.length = 2) (name : Arg String) (m : Option Id') (c : Id')
    (ix : IndicesArg) (symbol : Arg String) : Sh n (newBaseTensor kind name comps m c ix symbol) := by
  constructor
  · intro w hw
    rcases newBase_forms kind name comps m c ix symbol w with ⟨e, h⟩ | ⟨oc, a, ix', o, -, -, -, -, -, -, -, -, -, -, -, -, -, h⟩
    · rwa [h] at hw
    · rw [h] at hw; exact hw.append
  · intro w hw hs
    rcases newBase_forms kind name comps m c ix symbol w with
      ⟨e, h⟩ | ⟨oc, a, ix', o, b1, b2, b3, b4, b5, -, b6, b7, b8, b9, b10, b11, b12, h⟩
    · rwa [h]
    · rw [h] at hw ⊢
      have hn : oc.syms.length = n := hw.append c oc b1 b2
      refine hs.append ⟨fun c' ix a' ha => ?_, fun hk' => absurd (b7.symm.trans hk') hk, fun hk' => ?_, fun _ => b11,
        by rw [b8]; exact b4, fun hk' => absurd (b7.symm.trans hk') hk⟩ fun _ => by rw [b9]; exact ⟨oc, b1, b2⟩
      · unfold stored at ha
        rw [b10] at ha
        by_cases hc : c = c'
        · subst hc
          by_cases hi : ix' = ix
          · subst hi
            have : a = a' := by simpa [Dict.get?] using ha
            subst this
            refine ⟨by rw [b8], b4, ?_⟩
            rw [b5, ← hn]
            exact List.eq_replicate_of_mem b6
          · simp [Dict.get?, hi] at ha
        · simp [Dict.get?, hc] at ha
      · rw [b8, b5]
        exact h2 (b7.symm.trans hk') a b3

theorem Sh.newTensor (kind : Kind) (name : Arg String) (comps : Arg (Arr K)) (m c : Id') (ix : IndicesArg)
    (symbol : Arg String) (hk : kind ≠ .coordinates ∧ kind ≠ .metric := by decide) :
    Sh n (newTensor kind name comps m c ix symbol) := by
  unfold PyOGRe.newTensor
  exact Sh.bind (Sh.isMetric _) fun b _ => Sh.ite Sh.raise (Sh.newBaseTensor hk.1 (fun h => absurd h hk.2) _ _ _ _ _)

theorem Sh.register {f : Id' → Obj K} (h : ∀ i, (f i).kind = .coordinates ∧ (f i).comps = [] ∧ (f i).jac = [] ∧ Signs (f i).indices) :
    Sh n (register f) := by
  constructor
  · intro w hw
    exact AllDim.append hw
  · intro w hw hs
    obtain ⟨h1, h2, h3, h4⟩ := h w.objs.length
    refine hs.append ⟨fun c ix a ha => ?_, fun _ c ix => ?_, fun hk => ?_, fun hk => absurd h1 hk, h4, fun _ c j hj => ?_⟩
      fun hk => absurd h1 hk
    · unfold stored at ha; rw [h2] at ha; cases ha
    · unfold stored; rw [h2]; rfl
    · rw [h1] at hk; cases hk
    · rw [h3] at hj; cases hj

theorem Sh.delete (t : Id') : Sh n (K := K) (deleteObj t) := by
  have h : ∀ (l : List Id') (w : World K), (AllDim n (K := K) ⟨w.objs.modify t fun o => { o with alive := false }, l⟩ → AllDim n w) ∧
      (AllDim n (K := K) ⟨w.objs.modify t fun o => { o with alive := false }, l⟩ → Fits n w →
        Fits n (K := K) ⟨w.objs.modify t fun o => { o with alive := false }, l⟩) := by
    intro l w
    obtain ⟨h1, h2⟩ := Sh.change (n := n) (i := t) (u := fun o : Obj K => { o with alive := false })
      fun o => ⟨rfl, rfl, rfl, rfl, rfl, rfl⟩
    exact ⟨fun hw => h1 w hw, fun hw hs => h2 w hw hs⟩
  constructor
  · intro w hw
    unfold deleteObj at hw
    split_ifs at hw
    · exact hw
    · exact (h _ w).1 hw
    · exact (h _ w).1 hw
  · intro w hw hs
    unfold deleteObj at hw ⊢
    split_ifs at hw ⊢
    · exact hs
    · exact (h _ w).2 hw hs
    · exact (h _ w).2 hw hs

theorem Sh.tryDelete (t : Id') : Sh n (K := K) (tryDelete t) := by
  have key : ∀ w : World K, (PyOGRe.tryDelete t w).2 = (deleteObj t w).2 := by
    intro w
    unfold PyOGRe.tryDelete
    rcases h : deleteObj t w with ⟨r, w1⟩
    split <;> first | rfl | (rename_i h2; cases h2; rfl)
  exact ⟨fun w hw => (Sh.delete t).1 w (by rwa [key] at hw), fun w hw hs => by
    rw [key] at hw ⊢; exact (Sh.delete t).2 w hw hs⟩

theorem Sh.passOf {sel : Obj K → Bool} {del : Id' → PyM K Unit} (h : ∀ t, Sh n (del t)) : Sh n (deletePass sel del) := by
  have key : ∀ fuel i, Sh n (deleteFrom sel del fuel i) := by
    intro fuel
    induction fuel with
    | zero => exact fun i => Sh.done ()
    | succ fuel ih =>
      intro i
      unfold deleteFrom
      refine Sh.bind Sh.world fun w0 _ => ?_
      cases w0.instances[i]? with
      | none => exact Sh.done ()
      | some t => exact Sh.bind (Sh.getObj _) fun o _ => Sh.bind (Sh.onlyIf (h t)) fun _ _ => ih _
  exact ⟨fun w hw => (key _ _).1 w hw, fun w hw hs => (key _ _).2 w hw hs⟩

theorem Sh.deletePass : Sh n (K := K) (deletePass (hasName "TEMP") deleteObj) := Sh.passOf Sh.delete

theorem Sh.times {m : PyM K Unit} (h : Sh n m) (k : Nat) : Sh n (timesDo m k) := by
  induction k with
  | zero => exact Sh.done ()
  | succ k ih => exact Sh.bind h fun _ _ => ih

theorem Sh.clear : Sh n (K := K) clearInstances := by
  unfold clearInstances deleteResults
  refine Sh.bind (Sh.times (Sh.passOf Sh.tryDelete) _) fun _ _ => Sh.bind (Sh.times (Sh.passOf Sh.tryDelete) _) fun _ _ => ?_
  exact ⟨fun w hw => hw, fun w _ hs => hs⟩

end

section
variable [CommRing K] {E : Engine K} [Tame E n] {α β : Type}

theorem Sh.getComponents (t : Id') (c : Option Id') (ix : Option (List Int)) : Sh n (PyOGRe.getComponents E t c ix) :=
  Sh.sd (Kp.steady (Kp.getComponents _ _ _)) fun _ => Sd.getComponents _ _ _
theorem Sh.curveComponents {C : Curves K} (t : Id') (c : Option Id') (ix : Option (List Int)) :
    Sh n (curveComponents E C t c ix) :=
  Sh.sd (Kp.steady (Kp.curveComponents _ _ _)) fun _ => Sd.curveComponents _ _ _
theorem Sh.lowerComponents (t : Id') (c : Option Id') : Sh n (lowerComponents E t c) :=
  Sh.sd (Kp.steady (Kp.lowerComponents _ _)) fun _ => Sd.lowerComponents _ _

theorem Sh.copyAs (t : Id') (name : String) : Sh n (K := K) (copyAs t name) := by
  have key : ∀ w : World K, (PyOGRe.copyAs t name w).2 = w ∨
      ∃ o, w.objs[t]? = some o ∧ (PyOGRe.copyAs t name w).2 = ⟨w.objs ++ [{ o with name := name }], w.instances⟩ := by
    intro w
    rcases getObj_cases t w with ⟨o, h1, -, h⟩ | h
    · refine Or.inr ⟨o, h1, ?_⟩
      unfold PyOGRe.copyAs
      show (PyM.bind _ _ w).2 = _
      unfold PyM.bind
      rw [h]
    · refine Or.inl ?_
      unfold PyOGRe.copyAs
      show (PyM.bind _ _ w).2 = _
      unfold PyM.bind
      rw [h]
  constructor
  · intro w hw
    rcases key w with h | ⟨o, -, h⟩ <;> rw [h] at hw
    · exact hw
    · exact hw.append
  · intro w hw hs
    rcases key w with h | ⟨o, h1, h⟩ <;> rw [h]
    · exact hs
    · obtain ⟨k1, k2⟩ := hs t o h1
      exact hs.append ⟨k1.keys, k1.plain, k1.two, k1.bare, k1.signs, k1.jacs⟩ k2

theorem Shapely.indices {o : Obj K} (h : Shapely n o) {ix : List Int} (hl : ix.length = o.indices.length) (hs : Signs ix) :
    Shapely n { o with indices := ix } :=
  ⟨fun c ix' a ha => by
      obtain ⟨h1, h2⟩ := h.keys c ix' a ha
      exact ⟨h1.trans hl.symm, h2⟩, h.plain, fun hk => hl.trans (h.two hk), h.bare, hs, h.jacs⟩

theorem Sh.changeDefaultIndices (i : Id') (ix : List Int) : Sh n (changeDefaultIndices E i ix) := by
  unfold PyOGRe.changeDefaultIndices
  refine Sh.of (Bk.bind (Bk.steady (Steady.getObj _)) fun _ => Bk.bind (Bk.steady (Steady.lift _)) fun _ =>
    Bk.bind (Bk.kept fun w => (checkRepresentation_kept _ _ _ w).1) fun _ =>
    Bk.ite (Bk.modify fun _ => ⟨rfl, rfl⟩) (Bk.steady (Steady.pure _))) fun w0 => ?_
  refine SM.bind (Sd.getObj _) fun o ho => SM.bind (Sd.lift (Q := fun _ => Signs ix ∧ ix.length = o.indices.length)
    fun u hu => signs_of_valid hu) fun _ hv => ?_
  have hr : Rl w0 i ix.length := by rw [hv.2]; exact ho.rl
  refine SM.bind (Sd.checkRepresentation _ hr hv.1) fun b _ => SM.ite (fun _ => ?_) fun _ => SM.sd (Sd.pure (Q := fun _ => True) trivial)
  exact SM.modify (fun _ => rfl) fun o' ho' => ⟨ho'.shapely.indices (ho'.len hr).symm hv.1, ho'.sys⟩

theorem Shapely.coords {o : Obj K} (h : Shapely n o) (c : Id') : Shapely n { o with coords := c } :=
  ⟨h.keys, h.plain, h.two, h.bare, h.signs, h.jacs⟩

theorem Steady.curveTransform {C : Curves K} (i c : Id') (ix : List Int) : Steady (PyOGRe.curveTransform E C i c ix) :=
  fun w => (Wr.curveTransform (E := E) (C := C) (i := i) (c := c) ix w).1

theorem Sh.changeDefaultCoords (i c : Id') : Sh n (changeDefaultCoords E i c) := by
  unfold PyOGRe.changeDefaultCoords
  refine Sh.of ?_ fun w0 => ?_
  · exact Bk.bind (Bk.kept (Kp.isCoordinates _)) fun _ => Bk.ite (Bk.steady (Steady.raise _)) (Bk.bind (Bk.steady (Steady.getObj _))
      fun _ => Bk.ite (Bk.steady (Steady.pure _)) (Bk.bind (Bk.steady (Steady.getObj _)) fun _ => Bk.ite
      (Bk.bind (Bk.steady (Steady.getObj _)) fun _ => Bk.steady (Steady.raise _))
      (Bk.bind (Bk.steady (checkRepresentation_steady _ _ _)) fun _ =>
        Bk.bind (Bk.steady (Steady.onlyIf (transformCoordinates_steady _ _ _))) fun _ => Bk.modify fun _ => ⟨rfl, rfl⟩)))
  · refine SM.bind (Sd.isCoordinates c) fun b hb => ?_
    cases b with
    | false => exact SM.sd (Sd.raise (Q := fun _ => True))
    | true =>
      refine SM.bind (Sd.getObj _) fun o ho => SM.ite (fun _ => SM.sd (Sd.pure (Q := fun _ => True) trivial)) fun _ =>
        SM.bind (Sd.getObj _) fun oc hoc => SM.ite (fun _ => SM.bind (Sd.getObj _) fun _ _ => SM.sd (Sd.raise (Q := fun _ => True)))
        fun _ => SM.bind (Sd.checkRepresentation _ ho.rl ho.shapely.signs) fun b _ =>
        SM.bind (Sd.onlyIf (Q := fun _ => True) (fun _ => Sd.transformCoordinates _ ho.rl ho.shapely.signs) fun _ => trivial)
        fun _ _ => ?_
      exact SM.modify (fun _ => rfl) fun o' ho' => ⟨ho'.shapely.coords c, fun _ => hb rfl⟩

theorem Sh.curveChangeCoords {C : Curves K} (i c : Id') : Sh n (curveChangeCoords E C i c) := by
  unfold PyOGRe.curveChangeCoords
  refine Sh.of ?_ fun w0 => ?_
  · exact Bk.bind (Bk.kept (Kp.isCoordinates _)) fun _ => Bk.ite (Bk.steady (Steady.raise _)) (Bk.bind (Bk.steady (Steady.getObj _))
      fun _ => Bk.ite (Bk.steady (Steady.pure _)) (Bk.bind (Bk.steady (Steady.getObj _)) fun _ => Bk.ite
      (Bk.bind (Bk.steady (Steady.getObj _)) fun _ => Bk.steady (Steady.raise _))
      (Bk.bind (Bk.steady (tensorCheck_steady _ _ _)) fun _ =>
        Bk.bind (Bk.steady (Steady.onlyIf (Steady.curveTransform _ _ _))) fun _ => Bk.modify fun _ => ⟨rfl, rfl⟩)))
  · refine SM.bind (Sd.isCoordinates c) fun b hb => ?_
    cases b with
    | false => exact SM.sd (Sd.raise (Q := fun _ => True))
    | true =>
      refine SM.bind (Sd.getObj _) fun o ho => SM.ite (fun _ => SM.sd (Sd.pure (Q := fun _ => True) trivial)) fun _ =>
        SM.bind (Sd.getObj _) fun oc hoc => SM.ite (fun _ => SM.bind (Sd.getObj _) fun _ _ => SM.sd (Sd.raise (Q := fun _ => True)))
        fun _ => SM.bind (Sd.tensorCheck _ ho.rl ho.shapely.signs) fun b _ =>
        SM.bind (Sd.onlyIf (Q := fun _ => True) (fun _ => Sd.curveTransform _ _ _) fun _ => trivial)
        fun _ _ => ?_
      exact SM.modify (fun _ => rfl) fun o' ho' => ⟨ho'.shapely.coords c, fun _ => hb rfl⟩

theorem Sh.newMetric [DecidableEq K] [Algebra ℚ K] (name : Arg String) (comps : Arg (Arr K)) (c : Id') (ix : IndicesArg) (symbol : Arg String) :
    Sh n (newMetric E name comps c ix symbol) := by
  have hbk : Bk n (PyOGRe.newMetric E name comps c ix symbol) := Bk.at (T := true) fun k => At.newMetric _ _ _ _ _
  refine ⟨hbk, fun w hd hs => ?_⟩
  have hd0 := hbk w hd
  unfold PyOGRe.newMetric at hd ⊢
  rw [PyM.bind_apply, PyM.lift_apply] at hd ⊢
  cases hv : validateMetric E name comps ix symbol with
  | error e => exact hs
  | ok u =>
    have h2 : ∀ a, comps = .val a → a.shape.length = 2 := by
      intro a ha
      subst ha
      unfold validateMetric at hv
      obtain ⟨-, -, hv2⟩ := except_bind_ok hv
      split_ifs at hv2 with h
      all_goals exact not_not.1 h
    have hsh := Sh.newBaseTensor (n := n) (kind := .metric) (by decide) (fun _ => h2) name none c ix symbol
    rw [hv] at hd
    dsimp only at hd ⊢
    rw [PyM.bind_apply] at hd ⊢
    rcases newBase_forms .metric name comps none c ix symbol w with
      ⟨e, h⟩ | ⟨oc, a, ix', o, b1, b2, b3, b4, b5, b5', b6, b7, b8, b9, b10, b11, b12, h⟩
    · rw [h]; exact hs
    · have hsh2 := hsh.2 w
      rw [h] at hd hsh2 ⊢
      dsimp only at hd hsh2 ⊢
      set w1 : World K := ⟨w.objs ++ [o], w.instances ++ [w.objs.length]⟩ with hw1
      set i := w.objs.length with hi
      have ho : w1.objs[i]? = some o := by simp [hw1, hi]
      have hd1 : AllDim n w1 := by
        intro j x hx hk
        have hx' : (w.objs ++ [o])[j]? = some x := hx
        rw [List.getElem?_append] at hx'
        split_ifs at hx' with hj
        · exact hd0 j x hx' hk
        · rw [List.getElem?_singleton] at hx'
          split_ifs at hx'
          cases hx'
          rw [b7] at hk
          cases hk
      have hs1 : Fits n w1 := hsh2 hd1 hs
      have hrk : Rk w1 i 2 := by
        refine ⟨o, ho, by rw [b7]; decide, by rw [b8, b5, h2 a b3], ?_⟩
        rw [b9]
        exact ⟨oc, getElem?_append_old b1, b2⟩
      have hneg : ∀ {x y : Int}, (x = 1 ∨ x = -1) → (y = 1 ∨ y = -1) → Signs [x, y] := by
        intro x y hx hy z hz
        simp only [List.mem_cons, List.not_mem_nil, or_false] at hz
        rcases hz with rfl | rfl <;> assumption
      have hm : SM n w1 (do
          let o ← PyOGRe.getObj i
          let d ← PyOGRe.readComps i c o.indices
          PyOGRe.writeComps i c [1, -1] (eye (headDim d.shape))
          let d ← PyOGRe.readComps i c o.indices
          PyOGRe.writeComps i c [-1, 1] (eye (headDim d.shape))
          match ix with
          | .tuple l => do
            let d ← PyOGRe.readComps i c o.indices
            let inv ← PyM.lift (E.inv d)
            PyOGRe.writeComps i c (negIndices l) inv
            return i
          | _ => PyM.raise .typeError : PyM K Id') := by
        have hT : Tame E n := inferInstance
        refine SM.bind (Sd.getObj _) fun o' ho' => ?_
        have hl : o'.indices.length = 2 := (ho'.rank hrk).2.1
        have hshape : ∀ {d : Arr K}, Comp n w1 i o'.indices d → d.shape = [n, n] := by
          intro d hd
          rw [hd.shape, hl]
          rfl
        have hhead : ∀ {d : Arr K}, Comp n w1 i o'.indices d → (eye (headDim d.shape) : Arr K).shape = [n, n] := by
          intro d hd
          rw [shape_eye, hshape hd]
          rfl
        refine SM.bind (Sd.readComps _ _ _) fun d hd => SM.bind (Sd.writeComps _ ⟨hrk, hneg (by simp) (by simp), hhead hd⟩)
          fun _ _ => SM.bind (Sd.readComps _ _ _) fun d hd =>
          SM.bind (Sd.writeComps _ ⟨hrk, hneg (by simp) (by simp), hhead hd⟩) fun _ _ => ?_
        cases ix with
        | none => exact SM.sd (Sd.raise (Q := fun _ => True))
        | other => exact SM.sd (Sd.raise (Q := fun _ => True))
        | tuple l =>
          have hll : l.length = 2 := by rw [← b5' l rfl, b5, h2 a b3]
          have hls : Signs (negIndices l) := by
            intro x hx
            obtain ⟨y, hy, rfl⟩ := List.mem_map.1 hx
            rcases b4 y (by rw [b5' l rfl]; exact hy) with rfl | rfl <;> simp
          have hnl : (negIndices l).length = 2 := by unfold negIndices; rw [List.length_map, hll]
          exact SM.bind (Sd.readComps _ _ _) fun d hd =>
            SM.bind (Sd.lift (Q := fun v => v.shape = [n, n]) fun v hv => hT.inv_shape _ _ (hshape hd) hv) fun v hv =>
            SM.bind (Sd.writeComps _ ⟨by rw [hnl]; exact hrk, hls, by rw [hnl]; exact hv⟩) fun _ _ =>
            SM.sd (Sd.pure (Q := fun _ => True) trivial)
      exact hm w1 (Frame.refl w1) hd1 hs1

end

end PyOGRe
